import Verif.Model.OtsGuard
import Verif.Props.Ots
/-!
# C179: a deletion of keys that crashes
-/

namespace Verif.Props
open Verif Verif.HashId Verif.Multisig Verif.Ots

/-! ## Specification -/

/-- The batch of the identifier is still whole: deleting up to it draws a key for each of its offsets. -/
def Unfolds {S : Scheme} (st : Secrets S) (cur : Ident) : Prop :=
  st.firstBatch ≤ cur.batch ∧ cur.batch < st.firstBatch + st.batches.length

/-- The operating system has randomness for each key drawn. -/
def SourceWorks {S : Scheme} (cur : Ident) (n : Nat) (rnd : Nat → Option S.Sk) : Prop :=
  ∀ o, cur.offset ≤ o → o < n → rnd o ≠ none

/-- A call on a set of keys whose crashes are survived. -/
inductive GuardOp (S : Scheme) where
  | delete (cur : Ident) (n : Nat) (rnd : Nat → Option S.Sk)
  | sign (id : Ident) (msgRep : Bytes) (fresh : Option S.Sk)

/-- The deletions of a history: which of them crashed. -/
def runGuard {S : Scheme} (E : Enc) : Guarded S → List (GuardOp S) → List (Res Unit Unit) × Guarded S
  | g, [] => ([], g)
  | g, .delete cur n rnd :: ops =>
    let r := deleteG E g cur n rnd
    let rest := runGuard E r.2 ops
    (r.1 :: rest.1, rest.2)
  | g, .sign _ _ _ :: ops => runGuard E g ops

/-! ## Proof -/

theorem expandR_spec {S : Scheme} (E : Enc) (key : S.Sk) (batch : Nat) (rnd : Nat → Option S.Sk) :
    ∀ (n off : Nat), (expandR E key batch rnd off n).1.length ≤ n ∧
      ((expandR E key batch rnd off n).2 = true ↔ ∀ o, off ≤ o → o < off + n → rnd o ≠ none) ∧
      (∀ m, (∀ o, off ≤ o → o < off + m → rnd o ≠ none) → m ≤ n → m ≤ (expandR E key batch rnd off n).1.length) ∧
      (∀ (j : Nat) (k : Subkey S), (expandR E key batch rnd off n).1[j]? = some k →
        rnd (off + j) = some k.sk ∧ k.pkSig = S.sign key (offsetRep E (S.pub k.sk) batch (off + j)))
  | 0, off => ⟨by simp [expandR], by simp [expandR]; intros; omega, by intro m _ h; simp only [expandR]; omega,
      by simp [expandR]⟩
  | n + 1, off => by
    obtain ⟨h1, h2, h3, h4⟩ := expandR_spec E key batch rnd n (off + 1)
    cases hr : rnd off with
    | none =>
      simp only [expandR, hr]
      refine ⟨by simp, ⟨fun h => by simp at h, fun h => absurd hr (h off (by omega) (by omega))⟩, ?_, by simp⟩
      intro m hm _
      cases m with
      | zero => omega
      | succ m => exact absurd hr (hm off (by omega) (by omega))
    | some x =>
      simp only [expandR, hr]
      refine ⟨by simp; omega, ?_, ?_, ?_⟩
      · rw [h2]
        constructor
        · intro h o h5 h6
          rcases Nat.lt_or_ge off o with h7 | h7
          · exact h o (by omega) (by omega)
          · rw [show o = off by omega, hr]; simp
        · intro h o h5 h6
          exact h o (by omega) (by omega)
      · intro m hm hle
        cases m with
        | zero => omega
        | succ m =>
          have := h3 m (fun o h5 h6 => hm o (by omega) (by omega)) (by omega)
          simp; omega
      · intro j k hk
        cases j with
        | zero => simp at hk; subst hk; exact ⟨hr, rfl⟩
        | succ j =>
          obtain ⟨g1, g2⟩ := h4 j k (by simpa using hk)
          rw [show off + (j + 1) = off + 1 + j by omega]
          exact ⟨g1, g2⟩

theorem expandR_expand {S : Scheme} (E : Enc) (key : S.Sk) (batch : Nat) (rnd : Nat → Option S.Sk) (fresh : Nat → S.Sk) :
    ∀ (n off : Nat), (∀ o, off ≤ o → o < off + n → rnd o = some (fresh o)) →
      expandR E key batch rnd off n = (expand E key batch fresh off n, true)
  | 0, off, _ => rfl
  | n + 1, off, h => by
    rw [expandR, h off (by omega) (by omega), expandR_expand E key batch rnd fresh n (off + 1) (fun o h1 h2 => h o (by omega) (by omega))]
    rfl

/-- The outcomes of the body. -/
theorem deleteR_cases {S : Scheme} (E : Enc) (st : Secrets S) (cur : Ident) (n : Nat) (rnd : Nat → Option S.Sk) :
    (¬ cur.batch + 1 < u64Lim ∧ deleteR E st cur n rnd = (false, st)) ∨
    (cur.batch + 1 < u64Lim ∧ ¬ Unfolds st cur ∧ ∃ st', deleteR E st cur n rnd = (true, st') ∧
      ∀ fresh, deleteBefore E st cur n fresh = .ok st') ∨
    (cur.batch + 1 < u64Lim ∧ Unfolds st cur ∧ ∃ k rest, st.batches.drop (cur.batch - st.firstBatch) = k :: rest ∧
      deleteR E st cur n rnd =
        (if (expandR E k.sk cur.batch rnd cur.offset (n - cur.offset)).2 then (true, { st with
          offsetsPk2 := S.pub k.sk
          offsetsPk2Sig := k.pkSig
          firstOffset := cur.offset
          offsets := (expandR E k.sk cur.batch rnd cur.offset (n - cur.offset)).1
          firstBatch := cur.batch + 1
          batches := rest })
        else (false, { st with
          offsetsPk2 := S.pub k.sk
          offsetsPk2Sig := k.pkSig
          firstOffset := cur.offset
          offsets := (expandR E k.sk cur.batch rnd cur.offset (n - cur.offset)).1
          firstBatch := cur.batch
          batches := k :: rest })) ∧
      ∀ fresh, deleteBefore E st cur n fresh = .ok { st with
          offsetsPk2 := S.pub k.sk
          offsetsPk2Sig := k.pkSig
          firstOffset := cur.offset
          offsets := expand E k.sk cur.batch fresh cur.offset (n - cur.offset)
          firstBatch := cur.batch + 1
          batches := rest }) := by
  by_cases hc : cur.batch + 1 < u64Lim
  · right
    unfold deleteR
    simp only [hc, not_true_eq_false, if_false, deleteBefore, addU64, if_true, Res.ok_bind]
    by_cases h1 : cur.batch + 1 = st.firstBatch
    · left
      refine ⟨trivial, fun h => by have := h.1; omega, ?_⟩
      simp only [h1, if_true]
      by_cases h2 : cur.offset > st.firstOffset
      · simp only [h2, if_true]; exact ⟨_, rfl, fun _ => rfl⟩
      · simp only [h2, if_false]; exact ⟨_, rfl, fun _ => rfl⟩
    · simp only [h1, if_false]
      by_cases h2 : cur.batch + 1 < st.firstBatch
      · left
        simp only [h2, if_true]
        exact ⟨trivial, fun h => by have := h.1; omega, _, rfl, fun _ => rfl⟩
      · simp only [h2, if_false]
        by_cases h3 : cur.batch - st.firstBatch > st.batches.length
        · left
          simp only [h3, if_true]
          refine ⟨trivial, fun h => by have := h.1; have := h.2; omega, ?_⟩
          cases st.batches.isEmpty
          · exact ⟨_, rfl, fun _ => rfl⟩
          · exact ⟨_, rfl, fun _ => rfl⟩
        · simp only [h3, if_false]
          have hfb : st.firstBatch + (cur.batch - st.firstBatch) = cur.batch := by omega
          simp only [hfb]
          cases hd : st.batches.drop (cur.batch - st.firstBatch) with
          | nil =>
            left
            have := List.drop_eq_nil_iff.1 hd
            exact ⟨trivial, fun h => by have := h.1; have := h.2; omega, _, rfl, fun _ => rfl⟩
          | cons k rest =>
            right
            have := congrArg List.length hd
            rw [List.length_drop, List.length_cons] at this
            refine ⟨trivial, ⟨by omega, by omega⟩, k, rest, rfl, ?_, ?_⟩
            · cases hx : (expandR E k.sk cur.batch rnd cur.offset (n - cur.offset)).2
              · simp [hx]
              · simp [hx, hc]
            · intro fresh
              simp only [hc, if_true]; rfl
  · left
    exact ⟨hc, by unfold deleteR; rw [if_pos hc]⟩

/-! ## C179 -/

/-- **C179**, the part that holds: with a source that works and no earlier crash, deleting and signing are as in
`C21`–`C23`. Missing: a crash (`C179_violated`). -/
theorem C179_works_partial {S : Scheme} (E : Enc) (st : Secrets S) (fresh : Nat → S.Sk) (rnd : Nat → Option S.Sk)
    (cur : Ident) (n : Nat) (h : ∀ o, cur.offset ≤ o → o < n → rnd o = some (fresh o)) (hb : cur.batch + 1 < u64Lim) :
    ∃ st', deleteBefore E st cur n fresh = .ok st' ∧ deleteG E ⟨st, false⟩ cur n rnd = (.ok (), ⟨st', false⟩) := by
  unfold deleteG
  simp only [Bool.false_eq_true, if_false]
  rcases deleteR_cases E st cur n rnd with ⟨h1, _⟩ | ⟨_, _, st', e, e'⟩ | ⟨_, _, k, rest, _, e, e'⟩
  · exact absurd hb h1
  · exact ⟨st', e' fresh, by rw [e]⟩
  · refine ⟨_, e' fresh, ?_⟩
    rw [e, expandR_expand E k.sk cur.batch rnd fresh (n - cur.offset) cur.offset (fun o h1 h2 => h o h1 (by omega))]
    rfl

/-- C179: signing does not depend on the lock. -/
theorem C179_sign {S : Scheme} (E : Enc) (g : Guarded S) (id : Ident) (msgRep : Bytes) (fresh : S.Sk) :
    signG E g id msgRep (some fresh) = sign E g.st id msgRep fresh := rfl

/-- **C179**: a deletion crashes exactly if an earlier one crashed, or the batch is the last 64-bit number, or a whole
batch is split and there is no randomness for one of its keys. -/
theorem C179_crash_iff {S : Scheme} (E : Enc) (g : Guarded S) (cur : Ident) (n : Nat) (rnd : Nat → Option S.Sk) :
    (deleteG E g cur n rnd).1 = .panic ↔
      g.poisoned = true ∨ u64Lim ≤ cur.batch + 1 ∨ (Unfolds g.st cur ∧ ¬ SourceWorks cur n rnd) := by
  unfold deleteG
  cases hp : g.poisoned with
  | true => simp
  | false =>
    simp only [Bool.false_eq_true, if_false, false_or]
    rcases deleteR_cases E g.st cur n rnd with ⟨h1, e⟩ | ⟨h1, h2, st', e, _⟩ | ⟨h1, h2, k, rest, _, e, _⟩
    · rw [e]; simp; omega
    · rw [e]
      refine ⟨fun h => by simp at h, fun h => ?_⟩
      rcases h with h | h
      · omega
      · exact absurd h.1 h2
    · rw [e]
      have hs := (expandR_spec E k.sk cur.batch rnd (n - cur.offset) cur.offset).2.1
      have hw : SourceWorks cur n rnd ↔ ∀ o, cur.offset ≤ o → o < cur.offset + (n - cur.offset) → rnd o ≠ none :=
        ⟨fun h o a b => h o a (by omega), fun h o a b => h o a (by omega)⟩
      cases hx : (expandR E k.sk cur.batch rnd cur.offset (n - cur.offset)).2 with
      | true =>
        simp only [if_true]
        refine ⟨fun h => by simp at h, fun h => ?_⟩
        rcases h with h | h
        · omega
        · exact absurd (hw.2 (hs.1 hx)) h.2
      | false =>
        simp only [Bool.false_eq_true, if_false, true_iff]
        refine Or.inr ⟨h2, fun h => ?_⟩
        rw [hs.2 (hw.1 h)] at hx; cases hx

/-- **C179**, refuted: after a crash every later deletion crashes, and no key is deleted any more. -/
theorem C179_stuck {S : Scheme} (E : Enc) (g : Guarded S) (cur : Ident) (n : Nat) (rnd : Nat → Option S.Sk)
    (h : (deleteG E g cur n rnd).1 = .panic) (ops : List (GuardOp S)) :
    (∀ r ∈ (runGuard E (deleteG E g cur n rnd).2 ops).1, r = .panic) ∧
    (runGuard E (deleteG E g cur n rnd).2 ops).2 = (deleteG E g cur n rnd).2 := by
  have hp : (deleteG E g cur n rnd).2.poisoned = true := by
    unfold deleteG at h ⊢
    cases hg : g.poisoned with
    | true => simp [hg]
    | false =>
      simp only [hg, Bool.false_eq_true, if_false] at h ⊢
      cases hx : deleteR E g.st cur n rnd with
      | mk b st =>
        cases b with
        | true => rw [hx] at h; simp at h
        | false => rfl
  generalize (deleteG E g cur n rnd).2 = g' at hp
  induction ops with
  | nil => exact ⟨by simp [runGuard], rfl⟩
  | cons op ops ih =>
    cases op with
    | sign => exact ih
    | delete cur n rnd =>
      have e : deleteG E g' cur n rnd = (.panic, g') := by unfold deleteG; rw [if_pos hp]
      simp only [runGuard, e]
      exact ⟨fun r hr => by rcases List.mem_cons.1 hr with rfl | hr; exacts [rfl, ih.1 r hr], ih.2⟩

/-- **C179**: a snapshot taken after the crash works again: repeating the call on it, or calling it for another offset of
the same batch, gives what it would have given instead of the crash. -/
theorem C179_retry {S : Scheme} (E : Enc) (st : Secrets S) (cur : Ident) (n : Nat) (rnd : Nat → Option S.Sk)
    (h : (deleteG E ⟨st, false⟩ cur n rnd).1 = .panic) (cur' : Ident) (hb : cur'.batch = cur.batch) (n' : Nat)
    (rnd' : Nat → Option S.Sk) :
    deleteG E (snapshotG (deleteG E ⟨st, false⟩ cur n rnd).2) cur' n' rnd' = deleteG E ⟨st, false⟩ cur' n' rnd' := by
  unfold deleteG at h ⊢
  simp only [Bool.false_eq_true, if_false] at h ⊢
  rcases deleteR_cases E st cur n rnd with ⟨h1, e⟩ | ⟨h1, h2, st', e, _⟩ | ⟨h1, h2, k, rest, hd, e, _⟩
  · rw [e]; rfl
  · rw [e] at h; simp at h
  · cases hx : (expandR E k.sk cur.batch rnd cur.offset (n - cur.offset)).2 with
    | true => rw [e, hx] at h; simp at h
    | false =>
      rw [e, hx]
      simp only [Bool.false_eq_true, if_false, snapshotG, snapshot]
      have key : ∀ s : Secrets S, s.batches = k :: rest → s.firstBatch = cur.batch → s.verifier = st.verifier →
          deleteR E s cur' n' rnd' = deleteR E st cur' n' rnd' := by
        intro s e1 e2 e3
        rcases deleteR_cases E st cur' n' rnd' with ⟨g1, _⟩ | ⟨_, g2, _⟩ | ⟨_, _, k1, rest1, hd1, g, _⟩
        · omega
        · exact absurd (show Unfolds st cur' from ⟨by have := h2.1; omega, by have := h2.2; omega⟩) g2
        · rcases deleteR_cases E s cur' n' rnd' with ⟨g1, _⟩ | ⟨_, g2, _⟩ | ⟨_, _, k2, rest2, hd2, g', _⟩
          · omega
          · exact absurd (show Unfolds s cur' from ⟨by omega, by rw [e1, e2]; simp; omega⟩) g2
          · rw [hb, hd] at hd1
            rw [e1, e2, hb, Nat.sub_self, List.drop_zero] at hd2
            obtain ⟨rfl, rfl⟩ := List.cons.inj hd1
            obtain ⟨rfl, rfl⟩ := List.cons.inj hd2
            rw [g, g', e3]
      rw [key { st with
          offsetsPk2 := S.pub k.sk
          offsetsPk2Sig := k.pkSig
          firstOffset := cur.offset
          offsets := (expandR E k.sk cur.batch rnd cur.offset (n - cur.offset)).1
          firstBatch := cur.batch
          batches := k :: rest } rfl rfl rfl]

/-- **C179**: what a crashed deletion leaves: no key of an earlier batch, unless the batch was the last 64-bit number and
nothing happened; the keys of whole batches were there before; the other keys are drawn by this call. -/
theorem C179_retained {S : Scheme} (E : Enc) (st : Secrets S) (cur : Ident) (n : Nat) (rnd : Nat → Option S.Sk)
    (g : Guarded S) (h : deleteG E ⟨st, false⟩ cur n rnd = (.panic, g)) :
    (u64Lim ≤ cur.batch + 1 ∧ g.st = st) ∨
    ((∀ (i : Nat) (k : Subkey S), g.st.batches[i]? = some k → cur.batch ≤ g.st.firstBatch + i ∧
        ∃ i0, st.batches[i0]? = some k ∧ st.firstBatch + i0 = g.st.firstBatch + i) ∧
      ∀ (j : Nat) (k : Subkey S), g.st.offsets[j]? = some k → rnd (cur.offset + j) = some k.sk) := by
  unfold deleteG at h
  simp only [Bool.false_eq_true, if_false] at h
  rcases deleteR_cases E st cur n rnd with ⟨h1, e⟩ | ⟨h1, h2, st', e, _⟩ | ⟨h1, h2, k, rest, hd, e, _⟩
  · rw [e] at h
    injection h with _ h; subst h
    exact Or.inl ⟨by omega, rfl⟩
  · rw [e] at h; simp at h
  · right
    cases hx : (expandR E k.sk cur.batch rnd cur.offset (n - cur.offset)).2 with
    | true => rw [e, hx] at h; simp at h
    | false =>
      rw [e, hx] at h
      simp only [Bool.false_eq_true, if_false] at h
      injection h with _ h; subst h
      refine ⟨fun i k' hk' => ⟨by simp only; omega, cur.batch - st.firstBatch + i, ?_, ?_⟩, fun j k' hk' => ?_⟩
      · rw [← List.getElem?_drop, hd]; exact hk'
      · have := h2.1; simp only; omega
      · exact ((expandR_spec E k.sk cur.batch rnd (n - cur.offset) cur.offset).2.2.2 j k' hk').1

/-- **C179**: identifiers at or after the one given, which could be signed before, are still signed verifiably after the
crash. -/
theorem C179_future {S : Scheme} (hS : ∀ sk m, S.verify (S.pub sk) m (S.sign sk m) = true) (E : Enc) (st : Secrets S)
    (hcert : Certified E st) (cur : Ident) (n : Nat) (rnd : Nat → Option S.Sk) (g : Guarded S)
    (h : deleteG E ⟨st, false⟩ cur n rnd = (.panic, g)) (id : Ident) (hb : id.batch + 1 < u64Lim) (hle : IdLe cur id)
    (hs : Signable st id) (msgRep : Bytes) (fresh : S.Sk) :
    ∃ o, signG E g id msgRep (some fresh) = .ok o ∧ o.verify S E id msgRep st.verifier = true := by
  rw [C179_sign]
  unfold deleteG at h
  simp only [Bool.false_eq_true, if_false] at h
  rcases deleteR_cases E st cur n rnd with ⟨h1, e⟩ | ⟨h1, h2, st', e, _⟩ | ⟨h1, h2, k, rest, hd, e, _⟩
  · rcases hle with hle | hle <;> omega
  · rw [e] at h; simp at h
  · cases hx : (expandR E k.sk cur.batch rnd cur.offset (n - cur.offset)).2 with
    | true => rw [e, hx] at h; simp at h
    | false =>
      rw [e, hx] at h
      simp only [Bool.false_eq_true, if_false] at h
      injection h with _ h; subst h
      have h2a := h2.1
      have hge : cur.batch ≤ id.batch := by rcases hle with hle | hle <;> omega
      have hlen := congrArg List.length hd
      rw [List.length_drop, List.length_cons] at hlen
      have hlt : id.batch < st.firstBatch + st.batches.length := by
        rcases hs with ⟨a, _⟩ | ⟨_, a⟩
        · omega
        · exact a
      rw [Ots.sign, addU64, if_pos hb, Res.ok_bind]
      rw [if_neg (by simp only; omega)]
      have hlt' : id.batch - cur.batch < (k :: rest).length := by rw [List.length_cons]; omega
      rw [if_pos ⟨hge, hlt'⟩]
      have hg := List.getElem?_eq_getElem hlt'
      generalize (k :: rest)[id.batch - cur.batch]'hlt' = x at hg
      rw [hg, Res.ofOption_some, Res.ok_bind]
      refine ⟨_, rfl, ?_⟩
      have hg' : st.batches[id.batch - st.firstBatch]? = some x := by
        rw [show id.batch - st.firstBatch = cur.batch - st.firstBatch + (id.batch - cur.batch) by omega,
          ← List.getElem?_drop, hd, hg]
      have c1 := hcert.batches _ x hg'
      rw [show st.firstBatch + (id.batch - st.firstBatch) = id.batch by omega] at c1
      simp only [OTS.verify, c1, hS, Bool.and_self]

/-- **C179**, refuted: after the source has failed while a batch is split, a signature asked for an offset of the batch
before it is made with the key of the same offset in the batch that was being split, and verifies for that one. -/
theorem C179_wrong_identifier {S : Scheme} (hS : ∀ sk m, S.verify (S.pub sk) m (S.sign sk m) = true) (E : Enc)
    (st : Secrets S) (hcert : Certified E st) (cur : Ident) (n : Nat) (rnd : Nat → Option S.Sk) (g : Guarded S)
    (hu : Unfolds st cur) (hb : cur.batch + 1 < u64Lim) (hpos : 1 ≤ cur.batch)
    (h : deleteG E ⟨st, false⟩ cur n rnd = (.panic, g)) (off : Nat) (ho : cur.offset ≤ off) (hon : off < n)
    (hdrawn : ∀ o, cur.offset ≤ o → o ≤ off → rnd o ≠ none) (msgRep : Bytes) (fresh : Option S.Sk) :
    ∃ o, signG E g ⟨cur.batch - 1, off⟩ msgRep fresh = .ok o ∧ o.verify S E ⟨cur.batch, off⟩ msgRep st.verifier = true ∧
      some o.pk = (rnd off).map S.pub := by
  unfold deleteG at h
  simp only [Bool.false_eq_true, if_false] at h
  rcases deleteR_cases E st cur n rnd with ⟨h1, e⟩ | ⟨h1, h2, st', e, _⟩ | ⟨h1, h2, k, rest, hd, e, _⟩
  · omega
  · exact absurd hu h2
  · cases hx : (expandR E k.sk cur.batch rnd cur.offset (n - cur.offset)).2 with
    | true => rw [e, hx] at h; simp at h
    | false =>
      rw [e, hx] at h
      simp only [Bool.false_eq_true, if_false] at h
      injection h with _ h; subst h
      obtain ⟨_, _, x3, x4⟩ := expandR_spec E k.sk cur.batch rnd (n - cur.offset) cur.offset
      have hlen := x3 (off + 1 - cur.offset) (fun o a b => hdrawn o a (by omega)) (by omega)
      have hlt : off - cur.offset < (expandR E k.sk cur.batch rnd cur.offset (n - cur.offset)).1.length := by omega
      have hg := List.getElem?_eq_getElem hlt
      generalize (expandR E k.sk cur.batch rnd cur.offset (n - cur.offset)).1[off - cur.offset]'hlt = x at hg
      obtain ⟨y1, y2⟩ := x4 _ x hg
      rw [show cur.offset + (off - cur.offset) = off by omega] at y1 y2
      unfold signG
      simp only [addU64, Res.ok_bind, show cur.batch - 1 + 1 = cur.batch by omega, show cur.batch < u64Lim by omega, if_true]
      rw [if_pos ⟨trivial, ho, hlt⟩, hg, Res.ofOption_some, Res.ok_bind]
      refine ⟨_, rfl, ?_, ?_⟩
      · have h2a := h2.1
        have hg' : st.batches[cur.batch - st.firstBatch]? = some k := by
          have := List.getElem?_drop (xs := st.batches) (i := cur.batch - st.firstBatch) (j := 0)
          rw [hd] at this
          simpa using this.symm
        have c1 := hcert.batches _ k hg'
        rw [show st.firstBatch + (cur.batch - st.firstBatch) = cur.batch by omega] at c1
        simp only [OTS.verify, c1, y2, hS, Bool.and_self]
      · rw [y1]; rfl

/-- Two whole batches, 0 and 1. -/
def twoBatches : Secrets toyScheme :=
  ⟨[9], 0, [⟨([1] : Bytes), ([9] : Bytes) ++ batchRep toyOtsEnc [1] 0⟩, ⟨([2] : Bytes), ([9] : Bytes) ++ batchRep toyOtsEnc [2] 1⟩], 0,
    [], [0], [0]⟩

/-- Two batches of three keys; the deletion up to (1, 0) fails at its second draw. -/
def crashedKeys : Guarded toyScheme :=
  (deleteG toyOtsEnc ⟨twoBatches, false⟩ ⟨1, 0⟩ 3
    (fun o => if o = 0 then some ([7] : Bytes) else none)).2

/-- **C179**, refuted: a signature for a deleted identifier that does not verify for it but for a later one, and a set of
keys from which nothing can be deleted. -/
theorem C179_violated :
    (∃ o, signG toyOtsEnc crashedKeys ⟨0, 0⟩ [5] none = .ok o ∧ o.verify toyScheme toyOtsEnc ⟨0, 0⟩ [5] [9] = false ∧
      o.verify toyScheme toyOtsEnc ⟨1, 0⟩ [5] [9] = true) ∧
    ∀ cur n rnd, deleteG toyOtsEnc crashedKeys cur n rnd = (.panic, crashedKeys) := by
  refine ⟨⟨_, rfl, by decide, by decide⟩, fun cur n rnd => ?_⟩
  unfold deleteG
  rw [if_pos (by rfl)]

/-- The state before the crash is certified, as `C179_future` and `C179_wrong_identifier` ask. -/
example : Certified toyOtsEnc twoBatches := by
  refine ⟨fun i k hk => ?_, fun j k hk => by simp [twoBatches] at hk⟩
  rcases i with _ | _ | i
  · simp [twoBatches] at hk; subst hk; decide
  · simp [twoBatches] at hk; subst hk; decide
  · simp [twoBatches] at hk

example : Unfolds twoBatches ⟨1, 0⟩ ∧
    ¬ SourceWorks (S := toyScheme) ⟨1, 0⟩ 3 (fun o => if o = 0 then some ([7] : Bytes) else none) :=
  ⟨⟨by decide, by decide⟩, fun h => h 1 (by decide) (by decide) rfl⟩

/-- The source of randomness that works once. -/
def onceSource (o : Nat) : Option toyScheme.Sk := if o = 0 then some ([7] : Bytes) else none

theorem onceSource_crash : deleteG toyOtsEnc ⟨twoBatches, false⟩ ⟨1, 0⟩ 3 onceSource = (.panic, crashedKeys) := rfl

/-- A case of `C179_works_partial`. -/
example : ∃ st', deleteG toyOtsEnc ⟨twoBatches, false⟩ ⟨1, 0⟩ 3 (fun _ => some ([7] : Bytes)) = (.ok (), ⟨st', false⟩) := by
  obtain ⟨st', _, h⟩ := C179_works_partial toyOtsEnc twoBatches (fun _ => ([7] : Bytes)) (fun _ => some ([7] : Bytes)) ⟨1, 0⟩ 3
    (fun _ _ _ => rfl) (by decide)
  exact ⟨st', h⟩

/-- A case of `C179_stuck` and `C179_retry`. -/
example (ops : List (GuardOp toyScheme)) : (∀ r ∈ (runGuard toyOtsEnc crashedKeys ops).1, r = .panic) ∧
    deleteG toyOtsEnc (snapshotG crashedKeys) ⟨1, 1⟩ 3 (fun _ => some ([7] : Bytes)) =
      deleteG toyOtsEnc ⟨twoBatches, false⟩ ⟨1, 1⟩ 3 (fun _ => some ([7] : Bytes)) := by
  have h1 := C179_stuck toyOtsEnc ⟨twoBatches, false⟩ ⟨1, 0⟩ 3 onceSource (by rw [onceSource_crash]) ops
  have h2 := C179_retry toyOtsEnc twoBatches ⟨1, 0⟩ 3 onceSource (by rw [onceSource_crash]) ⟨1, 1⟩ rfl 3 (fun _ => some ([7] : Bytes))
  rw [onceSource_crash] at h1 h2
  exact ⟨h1.1, h2⟩

/-- A case of `C179_retained`, `C179_future` and `C179_wrong_identifier`. -/
example (hcert : Certified toyOtsEnc twoBatches) (msg : Bytes) :
    (∀ (j : Nat) (k : Subkey toyScheme), crashedKeys.st.offsets[j]? = some k → onceSource (0 + j) = some k.sk) ∧
    (∃ o, signG toyOtsEnc crashedKeys ⟨1, 2⟩ msg (some ([3] : Bytes)) = .ok o ∧ o.verify toyScheme toyOtsEnc ⟨1, 2⟩ msg [9] = true) ∧
    ∃ o, signG toyOtsEnc crashedKeys ⟨0, 0⟩ msg none = .ok o ∧ o.verify toyScheme toyOtsEnc ⟨1, 0⟩ msg [9] = true := by
  have hS : ∀ sk m, toyScheme.verify (toyScheme.pub sk) m (toyScheme.sign sk m) = true := fun sk m => by simp [toyScheme]
  refine ⟨?_, ?_, ?_⟩
  · rcases C179_retained toyOtsEnc twoBatches ⟨1, 0⟩ 3 onceSource crashedKeys onceSource_crash with h | h
    · exact absurd h.1 (by decide)
    · exact h.2
  · exact C179_future hS toyOtsEnc twoBatches hcert ⟨1, 0⟩ 3 onceSource crashedKeys onceSource_crash ⟨1, 2⟩ (by decide)
      (by simp [IdLe]) (.inr ⟨by decide, by decide⟩) msg _
  · obtain ⟨o, h1, h2, _⟩ := C179_wrong_identifier hS toyOtsEnc twoBatches hcert ⟨1, 0⟩ 3 onceSource crashedKeys
      ⟨by decide, by decide⟩ (by decide) (by decide) onceSource_crash 0 (by decide) (by decide)
      (fun o _ h => by have : o = 0 := by omega
                       subst this; simp [onceSource]) msg none
    exact ⟨o, h1, h2⟩

end Verif.Props
