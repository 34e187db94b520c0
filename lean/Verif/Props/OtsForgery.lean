import Verif.Props.Ots
import Verif.Props.Codec
/-!
# One-time signatures cannot be forged (C100)

The ideal world: the owner generates one-time signature secrets and then signs and deletes in any order. Along the way
the world records which message was signed with which key (`log`), what every key is for (`roles`) and what `sign` was
called with (`asked`). Unforgeability of the signature scheme and freshness of random keys are hypotheses about a
finished run.
-/

namespace Verif.Props
open Verif Verif.HashId Verif.Multisig Verif.Ots Verif.Codec

/-- What a key is for. -/
inductive KeyRole where
  | master
  | batch (b : Nat)
  | eph (b off : Nat)
  deriving Repr, DecidableEq

/-- The owner's secrets and the record of what happened. -/
structure OtsWorld (S : Scheme) where
  st : Secrets S
  log : List (Bytes × Bytes)
  roles : List (Bytes × KeyRole)
  asked : List (Ident × Bytes)

/-- After `generate`: the master key signed the certificate of every batch key. -/
def worldGen {S : Scheme} (E : Enc) (master : S.Sk) (st : Secrets S) : OtsWorld S where
  st := st
  log := st.batches.zipIdx.map fun p => (S.pub master, batchRep E (S.pub p.1.sk) (st.firstBatch + p.2))
  roles := (S.pub master, .master) :: st.batches.zipIdx.map fun p => (S.pub p.1.sk, .batch (st.firstBatch + p.2))
  asked := []

/-- After `sign` returned `o`: with a retained batch key, a new ephemeral key signed the message and the batch key
signed its certificate; with a retained offset key, that key signed the message; otherwise nothing was signed. -/
def worldSign {S : Scheme} (E : Enc) (w : OtsWorld S) (id : Ident) (msg : Bytes) (o : OTS) : OtsWorld S :=
  if w.st.firstBatch ≤ id.batch ∧ id.batch < w.st.firstBatch + w.st.batches.length then
    { w with
      log := (o.pk, msg) :: (o.pk2, offsetRep E o.pk id.batch id.offset) :: w.log
      roles := (o.pk, .eph id.batch id.offset) :: w.roles
      asked := (id, msg) :: w.asked }
  else if id.batch + 1 = w.st.firstBatch ∧ w.st.firstOffset ≤ id.offset ∧
      id.offset < w.st.firstOffset + w.st.offsets.length then
    { w with
      log := (o.pk, msg) :: w.log
      asked := (id, msg) :: w.asked }
  else { w with asked := (id, msg) :: w.asked }

/-- After `delete_before(cur)` left the secrets `st'`: if a batch key was expanded, it signed the certificates of the
new offset keys. -/
def worldDel {S : Scheme} (E : Enc) (w : OtsWorld S) (cur : Ident) (st' : Secrets S) : OtsWorld S :=
  if w.st.firstBatch ≤ cur.batch then
    { st := st'
      log := (st'.offsets.zipIdx.map fun p =>
        (st'.offsetsPk2, offsetRep E (S.pub p.1.sk) cur.batch (st'.firstOffset + p.2))) ++ w.log
      roles := (st'.offsets.zipIdx.map fun p => (S.pub p.1.sk, .eph cur.batch (st'.firstOffset + p.2))) ++ w.roles
      asked := w.asked }
  else { w with st := st' }

/-- The runs of the owner: generate, then any calls with 64-bit arguments. -/
inductive OtsRun {S : Scheme} (E : Enc) (master : S.Sk) : OtsWorld S → Prop
  | gen (eph : Nat → S.Sk) (start num : Nat) (st : Secrets S) (hr : start + num ≤ u64Lim)
      (h : generate S E master eph start num = .ok st) : OtsRun E master (worldGen E master st)
  | sign (w : OtsWorld S) (hw : OtsRun E master w) (id : Ident) (msg : Bytes) (fresh : S.Sk) (o : OTS)
      (hb : id.batch < u64Lim) (ho : id.offset < u64Lim)
      (h : Ots.sign E w.st id msg fresh = .ok o) : OtsRun E master (worldSign E w id msg o)
  | del (w : OtsWorld S) (hw : OtsRun E master w) (cur : Ident) (n : Nat) (fresh : Nat → S.Sk) (st' : Secrets S)
      (hn : n < u64Lim) (h : deleteBefore E w.st cur n fresh = .ok st') : OtsRun E master (worldDel E w cur st')

/-- Why a pair of a key and a message may be in the log. -/
def LogOk (E : Enc) (master : Bytes) (roles : List (Bytes × KeyRole)) (asked : List (Ident × Bytes))
    (pk m : Bytes) : Prop :=
  (pk = master ∧ ∃ p b, m = batchRep E p b ∧ (p, KeyRole.batch b) ∈ roles) ∨
  (∃ b q off, (pk, KeyRole.batch b) ∈ roles ∧ m = offsetRep E q b off ∧ (q, KeyRole.eph b off) ∈ roles) ∨
  (∃ b off, (pk, KeyRole.eph b off) ∈ roles ∧ (⟨b, off⟩, m) ∈ asked)

theorem LogOk.mono {E : Enc} {master : Bytes} {r r' : List (Bytes × KeyRole)} {a a' : List (Ident × Bytes)}
    {pk m : Bytes} (h : LogOk E master r a pk m) (hr : ∀ x ∈ r, x ∈ r') (ha : ∀ x ∈ a, x ∈ a') :
    LogOk E master r' a' pk m := by
  rcases h with ⟨h1, p, b, h2, h3⟩ | ⟨b, q, off, h1, h2, h3⟩ | ⟨b, off, h1, h2⟩
  · exact Or.inl ⟨h1, p, b, h2, hr _ h3⟩
  · exact Or.inr (Or.inl ⟨b, q, off, hr _ h1, h2, hr _ h3⟩)
  · exact Or.inr (Or.inr ⟨b, off, hr _ h1, ha _ h2⟩)

/-- Keys of a role have a length of 32 bytes and 64-bit numbers. -/
def RoleOk (S : Scheme) : Bytes × KeyRole → Prop
  | (p, .master) => ∃ sk, p = S.pub sk
  | (p, .batch b) => (∃ sk, p = S.pub sk) ∧ b < u64Lim
  | (p, .eph b off) => (∃ sk, p = S.pub sk) ∧ b < u64Lim ∧ off < u64Lim

structure OtsInv {S : Scheme} (E : Enc) (master : S.Sk) (w : OtsWorld S) : Prop where
  batches : ∀ (i : Nat) (k : Subkey S), w.st.batches[i]? = some k →
    (S.pub k.sk, KeyRole.batch (w.st.firstBatch + i)) ∈ w.roles
  offsets : ∀ (j : Nat) (k : Subkey S), w.st.offsets[j]? = some k →
    1 ≤ w.st.firstBatch ∧ (S.pub k.sk, KeyRole.eph (w.st.firstBatch - 1) (w.st.firstOffset + j)) ∈ w.roles
  log : ∀ pk m, (pk, m) ∈ w.log → LogOk E (S.pub master) w.roles w.asked pk m
  master : (S.pub master, KeyRole.master) ∈ w.roles
  roles : ∀ r ∈ w.roles, RoleOk S r

theorem otsInv {S : Scheme} (E : Enc) (master : S.Sk) (w : OtsWorld S) (h : OtsRun E master w) :
    OtsInv E master w := by
  induction h with
  | gen eph start num st hr h =>
    obtain ⟨l, g1, g2, g3⟩ := genLoop_spec S E master eph start num 0 (by omega)
    rw [generate, g1] at h
    injection h with h
    subst h
    have hmem : ∀ (i : Nat) (k : Subkey S), l[i]? = some k →
        (S.pub k.sk, KeyRole.batch (start + i)) ∈ (worldGen E master
          (⟨S.pub master, start, l, 0, [], defaultPk, zeroSig⟩ : Secrets S)).roles := by
      intro i k hk
      simp only [worldGen, List.mem_cons, List.mem_map]
      exact Or.inr ⟨(k, i), List.mem_zipIdx_iff_getElem?.2 hk, rfl⟩
    refine ⟨hmem, ?_, ?_, by simp [worldGen], ?_⟩
    · intro j k hk; simp [worldGen] at hk
    · intro pk m hm
      simp only [worldGen, List.mem_map] at hm
      obtain ⟨⟨k, i⟩, hi, e⟩ := hm
      injection e with e1 e2
      exact Or.inl ⟨e1.symm, _, _, e2.symm, hmem i k (List.mem_zipIdx_iff_getElem?.1 hi)⟩
    · intro r hr'
      simp only [worldGen, List.mem_cons, List.mem_map] at hr'
      rcases hr' with rfl | ⟨⟨k, i⟩, hi, rfl⟩
      · exact ⟨_, rfl⟩
      · have hi := List.mem_zipIdx_iff_getElem?.1 hi
        have hlt := (List.getElem?_eq_some_iff.1 hi).1
        rw [g2] at hlt
        exact ⟨⟨_, rfl⟩, by simp only; omega⟩
  | sign w hw id msg fresh o hb ho h ih =>
    have hb1 : id.batch + 1 < u64Lim := by
      by_contra hc
      rw [Ots.sign, addU64, if_neg hc] at h; cases h
    rw [Ots.sign, addU64, if_pos hb1, Res.ok_bind] at h
    unfold worldSign
    by_cases h1 : id.batch + 1 = w.st.firstBatch ∧ id.offset ≥ w.st.firstOffset ∧
        id.offset - w.st.firstOffset < w.st.offsets.length
    · rw [if_neg (by omega), if_pos (by omega)]
      rw [if_pos h1] at h
      have hg := List.getElem?_eq_getElem h1.2.2
      generalize w.st.offsets[id.offset - w.st.firstOffset]'(h1.2.2) = k at hg
      rw [hg, Res.ofOption_some, Res.ok_bind] at h
      injection h with h
      subst h
      obtain ⟨-, hrole⟩ := ih.offsets _ k hg
      rw [show w.st.firstBatch - 1 = id.batch by omega,
        show w.st.firstOffset + (id.offset - w.st.firstOffset) = id.offset by omega] at hrole
      refine ⟨ih.batches, ih.offsets, ?_, ih.master, ih.roles⟩
      intro pk m hm
      rcases List.mem_cons.1 hm with e | hm
      · injection e with e1 e2
        subst e1; subst e2
        exact Or.inr (Or.inr ⟨id.batch, id.offset, hrole, by simp⟩)
      · exact (ih.log pk m hm).mono (fun _ hx => hx) (fun _ hx => List.mem_cons_of_mem _ hx)
    · rw [if_neg h1] at h
      by_cases h2 : id.batch ≥ w.st.firstBatch ∧ id.batch - w.st.firstBatch < w.st.batches.length
      · rw [if_pos (by omega)]
        rw [if_pos h2] at h
        have hg := List.getElem?_eq_getElem h2.2
        generalize w.st.batches[id.batch - w.st.firstBatch]'(h2.2) = k at hg
        rw [hg, Res.ofOption_some, Res.ok_bind] at h
        injection h with h
        subst h
        have hrole := ih.batches _ k hg
        rw [show w.st.firstBatch + (id.batch - w.st.firstBatch) = id.batch by omega] at hrole
        refine ⟨fun i k hk => List.mem_cons_of_mem _ (ih.batches i k hk),
          fun j k hk => ⟨(ih.offsets j k hk).1, List.mem_cons_of_mem _ (ih.offsets j k hk).2⟩, ?_,
          List.mem_cons_of_mem _ ih.master, ?_⟩
        · intro pk m hm
          rcases List.mem_cons.1 hm with e | hm
          · injection e with e1 e2
            subst e1; subst e2
            exact Or.inr (Or.inr ⟨id.batch, id.offset, by simp, by simp⟩)
          rcases List.mem_cons.1 hm with e | hm
          · injection e with e1 e2
            subst e1; subst e2
            exact Or.inr (Or.inl ⟨id.batch, _, id.offset, List.mem_cons_of_mem _ hrole, rfl, by simp⟩)
          · exact (ih.log pk m hm).mono (fun _ hx => List.mem_cons_of_mem _ hx) (fun _ hx => List.mem_cons_of_mem _ hx)
        · intro r hr
          rcases List.mem_cons.1 hr with rfl | hr
          · exact ⟨⟨_, rfl⟩, hb, ho⟩
          · exact ih.roles r hr
      · rw [if_neg (by omega), if_neg (by omega)]
        exact ⟨ih.batches, ih.offsets, fun pk m hm => (ih.log pk m hm).mono (fun _ hx => hx)
          (fun _ hx => List.mem_cons_of_mem _ hx), ih.master, ih.roles⟩
  | del w hw cur n fresh st' hn h ih =>
    have hc := (deleteBefore_signable E w.st st' cur n fresh h).1
    unfold worldDel
    rcases deleteBefore_cases E w.st cur n fresh hc with ⟨a, b, e⟩ | ⟨a, b, e⟩ | ⟨a, e⟩ | ⟨a, b, c, e⟩ | ⟨a, e⟩ |
      ⟨k, rest, a, b, c, e⟩
    all_goals (rw [h] at e; injection e with e; subst e)
    · rw [if_neg (by omega)]
      exact ⟨ih.batches, ih.offsets, ih.log, ih.master, ih.roles⟩
    · rw [if_neg (by omega)]
      refine ⟨ih.batches, ?_, ih.log, ih.master, ih.roles⟩
      intro j k hk
      simp only [List.getElem?_drop] at hk
      have := ih.offsets _ k hk
      refine ⟨this.1, ?_⟩
      simp only
      rw [Nat.add_assoc]
      exact this.2
    · rw [if_neg (by omega)]
      exact ⟨ih.batches, ih.offsets, ih.log, ih.master, ih.roles⟩
    · rw [if_pos a]
      exact ⟨ih.batches, by intro j k hk; simp at hk, ih.log, ih.master, ih.roles⟩
    · rw [if_pos (by omega)]
      exact ⟨by intro j k hk; simp at hk, by intro j k hk; simp at hk, ih.log, ih.master, ih.roles⟩
    · rw [if_pos a]
      have hget : ∀ (i : Nat), (k :: rest)[i]? = w.st.batches[cur.batch - w.st.firstBatch + i]? := by
        intro i; rw [← c, List.getElem?_drop]
      have hk : (S.pub k.sk, KeyRole.batch cur.batch) ∈ w.roles := by
        have h0 := hget 0
        rw [List.getElem?_cons_zero] at h0
        have := ih.batches _ k h0.symm
        rwa [show w.st.firstBatch + (cur.batch - w.st.firstBatch + 0) = cur.batch by omega] at this
      have hex := expand_spec E k.sk cur.batch fresh (n - cur.offset) cur.offset
      have hnew : ∀ (j : Nat) (q : Subkey S), (expand E k.sk cur.batch fresh cur.offset (n - cur.offset))[j]? = some q →
          (S.pub q.sk, KeyRole.eph cur.batch (cur.offset + j)) ∈
            ((expand E k.sk cur.batch fresh cur.offset (n - cur.offset)).zipIdx.map
              fun p => (S.pub p.1.sk, KeyRole.eph cur.batch (cur.offset + p.2))) ++ w.roles := by
        intro j q hq
        exact List.mem_append_left _ (List.mem_map.2 ⟨(q, j), List.mem_zipIdx_iff_getElem?.2 hq, rfl⟩)
      refine ⟨?_, ?_, ?_, List.mem_append_right _ ih.master, ?_⟩
      · intro i k' hk'
        simp only at hk' ⊢
        have h1 := hget (i + 1)
        rw [List.getElem?_cons_succ, hk'] at h1
        have := ih.batches _ k' h1.symm
        rw [show w.st.firstBatch + (cur.batch - w.st.firstBatch + (i + 1)) = cur.batch + 1 + i by omega] at this
        exact List.mem_append_right _ this
      · intro j k' hk'
        simp only [Nat.add_sub_cancel] at hk' ⊢
        exact ⟨by omega, hnew j k' hk'⟩
      · intro pk m hm
        rcases List.mem_append.1 hm with hm | hm
        · obtain ⟨⟨q, j⟩, hq, e⟩ := List.mem_map.1 hm
          injection e with e1 e2
          subst e1; subst e2
          exact Or.inr (Or.inl ⟨cur.batch, _, _, List.mem_append_right _ hk, rfl,
            hnew j q (List.mem_zipIdx_iff_getElem?.1 hq)⟩)
        · exact (ih.log pk m hm).mono (fun _ hx => List.mem_append_right _ hx) (fun _ hx => hx)
      · intro r hr
        rcases List.mem_append.1 hr with hr | hr
        · obtain ⟨⟨q, j⟩, hq, rfl⟩ := List.mem_map.1 hr
          have hlt := (List.getElem?_eq_some_iff.1 (List.mem_zipIdx_iff_getElem?.1 hq)).1
          rw [hex.1] at hlt
          exact ⟨⟨_, rfl⟩, by omega, by simp only; omega⟩
        · exact ih.roles r hr

theorem nodup_role {l : List (Bytes × KeyRole)} (hn : (l.map Prod.fst).Nodup) {p : Bytes} {a b : KeyRole}
    (ha : (p, a) ∈ l) (hb : (p, b) ∈ l) : a = b := by
  have := List.inj_on_of_nodup_map hn ha hb rfl
  injection this

/-- C100: take any run of the owner of one-time signature secrets: generation, then signing and deleting in any order.
Suppose the random keys drawn are pairwise different and the underlying signatures are unforgeable (a signature that
verifies under one of these keys is on a message that key was used to sign). Then a one-time signature that
verifies for an identifier and a message under the owner's verifier is on an identifier and a message that the
owner called `sign` with: neither the message nor the identifier can be replaced. -/
theorem C100_unforgeable {S : Scheme} (hlen : ∀ sk, (S.pub sk).length = 32) (master : S.Sk) (w : OtsWorld S)
    (hrun : OtsRun otsEnc master w) (hfresh : (w.roles.map Prod.fst).Nodup)
    (hunf : ∀ pk ∈ w.roles.map Prod.fst, ∀ m s, S.verify pk m s = true → (pk, m) ∈ w.log)
    (o : OTS) (hpk : o.pk.length = 32) (hpk2 : o.pk2.length = 32) (id : Ident) (hb : id.batch < u64Lim)
    (ho : id.offset < u64Lim) (msg : Bytes) (hacc : o.verify S otsEnc id msg (S.pub master) = true) :
    (id, msg) ∈ w.asked := by
  have inv := otsInv otsEnc master w hrun
  simp only [OTS.verify, Bool.and_eq_true] at hacc
  obtain ⟨⟨v1, v2⟩, v3⟩ := hacc
  have mem : ∀ {p r}, (p, r) ∈ w.roles → p ∈ w.roles.map Prod.fst := fun h => List.mem_map.2 ⟨_, h, rfl⟩
  have h1 : (o.pk2, KeyRole.batch id.batch) ∈ w.roles := by
    rcases inv.log _ _ (hunf _ (mem inv.master) _ _ v1) with ⟨-, p, b, e, hp⟩ | ⟨b, q, off, hr, -⟩ | ⟨b, off, hr, -⟩
    · have hok := inv.roles _ hp
      obtain ⟨⟨sk, rfl⟩, hb'⟩ := hok
      have := (C87_certificates_name_slot o.pk2 (S.pub sk) id.batch b 0 0 hpk2 (hlen sk) hb hb' (by decide) (by decide)).1 e
      rw [this.1, this.2]; exact hp
    · exact KeyRole.noConfusion (nodup_role hfresh inv.master hr)
    · exact KeyRole.noConfusion (nodup_role hfresh inv.master hr)
  have h2 : (o.pk, KeyRole.eph id.batch id.offset) ∈ w.roles := by
    rcases inv.log _ _ (hunf _ (mem h1) _ _ v2) with ⟨e, -⟩ | ⟨b, q, off, hr, e, hq⟩ | ⟨b, off, hr, -⟩
    · rw [e] at h1
      exact KeyRole.noConfusion (nodup_role hfresh inv.master h1)
    · obtain ⟨⟨sk, rfl⟩, hb', ho'⟩ := inv.roles _ hq
      have := (C87_certificates_name_slot o.pk (S.pub sk) id.batch b id.offset off hpk (hlen sk) hb hb' ho ho').2.1 e
      rw [this.1, this.2.1, this.2.2]; exact hq
    · exact KeyRole.noConfusion (nodup_role hfresh h1 hr)
  rcases inv.log _ _ (hunf _ (mem h2) _ _ v3) with ⟨e, -⟩ | ⟨b, q, off, hr, -⟩ | ⟨b, off, hr, ha⟩
  · rw [e] at h2
    exact KeyRole.noConfusion (nodup_role hfresh inv.master h2)
  · exact KeyRole.noConfusion (nodup_role hfresh h2 hr)
  · have := nodup_role hfresh h2 hr
    injection this with e1 e2
    rw [show id = ⟨b, off⟩ by cases id; simp_all]
    exact ha

/-! An instance of the hypotheses: one batch, one signature. -/

/-- Public keys of the example. -/
def forgePub (b : UInt8) : Bytes := List.replicate 32 b

/-- What is signed in the example. -/
def forgeLog : List (Bytes × Bytes) :=
  [(forgePub 3, [9]), (forgePub 2, offsetRep otsEnc (forgePub 3) 5 7), (forgePub 1, batchRep otsEnc (forgePub 2) 5)]

/-- A scheme that accepts exactly what was signed. -/
def forgeScheme : Scheme where
  Sk := UInt8
  pub := forgePub
  sign := fun _ _ => []
  verify := fun pk m _ => forgeLog.contains (pk, m)

example : ∃ w : OtsWorld forgeScheme, OtsRun otsEnc (1 : UInt8) w ∧ (w.roles.map Prod.fst).Nodup ∧
    (∀ pk ∈ w.roles.map Prod.fst, ∀ m s, forgeScheme.verify pk m s = true → (pk, m) ∈ w.log) ∧
    (∃ o : OTS, o.pk.length = 32 ∧ o.pk2.length = 32 ∧
      o.verify forgeScheme otsEnc ⟨5, 7⟩ [9] (forgeScheme.pub (1 : UInt8)) = true) ∧
    w.asked = [(⟨5, 7⟩, [9])] := by
  refine ⟨_, OtsRun.sign (S := forgeScheme) (E := otsEnc) (master := (1 : UInt8)) _
    (.gen (fun _ => (2 : UInt8)) 5 1 _ (by decide) rfl) ⟨5, 7⟩ [9] (3 : UInt8)
    ⟨[], forgePub 3, forgePub 2, [], []⟩ (by decide) (by decide) rfl, ?_, ?_, ?_, rfl⟩
  · show [forgePub 3, forgePub 1, forgePub 2].Nodup
    decide
  · intro pk _ m s h
    have h' : (pk, m) ∈ forgeLog := by simpa [forgeScheme] using h
    exact h'
  · refine ⟨⟨[], forgePub 3, forgePub 2, [], []⟩, rfl, rfl, ?_⟩
    simp [OTS.verify, forgeScheme, forgeLog]

end Verif.Props
