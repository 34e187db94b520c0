import Verif.Props.Account
import Verif.Props.Block
/-!
# Properties of root accounts and of the account manager (C30, C90-C93)
-/

namespace Verif.Props
open Verif Verif.Ots Verif.Multisig Verif.Codec Verif.Msgpack Verif.Balance Verif.Account

/-! ## C90: root accounts -/

/-- C90, the part that holds: a root account made from the 64 bytes of a key pair is restored, and without one the
store reports that nothing was found. Missing: the code passes a 32-byte seed. -/
theorem C90_restored_partial {S : Scheme} {K : Keys S} (hK : GoodKeys K) (s : Store) (b : Bytes) (sk : S.Sk)
    (hb : K.skOf b = some sk) :
    ∃ w, importRoot K b = .ok (sk, w) ∧ restoreRoot K (s.inserts w) = .ok sk ∧
      (s .root = none → restoreRoot K s = .err .notFound) := by
  refine ⟨_, by rw [importRoot, hb]; rfl, ?_, ?_⟩
  · have hf : (MP.bin (K.skBytes sk)).Fits := fits_bin (by rw [keypair_len hK]; decide)
    have := decode_enc _ [] hf
    rw [List.append_nil] at this
    simp [restoreRoot, Store.inserts, Store.insert, this, decKeypair, hK.sk_back, orDecodeError]
  · intro h; rw [restoreRoot, h]

example : ∃ w, importRoot byteKeys (List.replicate 64 5) = .ok ((5 : UInt8), w) ∧
    restoreRoot byteKeys (Store.inserts (fun _ => none) w) = .ok (5 : UInt8) := by
  obtain ⟨w, h1, h2, _⟩ := C90_restored_partial byteKeys_good (fun _ => none) (List.replicate 64 5) (5 : UInt8)
    (byteKeys_good.sk_back (5 : UInt8))
  exact ⟨w, h1, h2⟩

/-- C90 fails: `Root::import`, and so `Root::generate`, panics for every 32-byte seed, because `Keypair::from_bytes`
wants 64 bytes. -/
theorem C90_violated {S : Scheme} {K : Keys S} (hK : GoodKeys K) (seed : Bytes) (h : seed.length = 32) :
    importRoot K seed = .panic := by
  rw [importRoot]
  cases hs : K.skOf seed with
  | none => rfl
  | some sk => have := hK.sk_len _ _ hs; omega

example : importRoot byteKeys (List.replicate 32 1) = .panic := C90_violated byteKeys_good _ (by decide)

/-! ## C30: the account manager -/

/-- A call of `delete_old_keys`: its arguments, the keys it draws and the order in which the map iterates. -/
structure DelOp (S : Scheme) where
  header : Block.BlockHeader
  ccSigs : Bytes → Option Nat
  dilution : Nat
  fresh : Identity → Nat → S.Sk
  order : List (Identity × Participation S) → List (Identity × Participation S)
  perm : ∀ l, (order l).Perm l

/-- An operation on the manager. -/
inductive MgrOp (S : Scheme) where
  | add (p : Participation S)
  | delete (d : DelOp S)

/-- The manager after a history of operations. -/
def runMgr {S : Scheme} (E : Enc) (K : Keys S) (tbl : Consensus.Protocols) : Manager S → List (MgrOp S) → Res Unit (Manager S)
  | m, [] => .ok m
  | m, .add p :: l => runMgr E K tbl (m.addParticipation p).1 l
  | m, .delete d :: l => do
    let r ← m.deleteOldKeys E K tbl d.header d.ccSigs d.dilution d.fresh d.order
    runMgr E K tbl r.1 l

/-- The deletions of a history. -/
def deletionsOf {S : Scheme} : List (MgrOp S) → List (DelOp S)
  | [] => []
  | .add _ :: l => deletionsOf l
  | .delete d :: l => d :: deletionsOf l

/-- The first participation added with an identity, and the deletions after that. -/
def firstAdd {S : Scheme} (id : Identity) : List (MgrOp S) → Option (Participation S × List (DelOp S))
  | [] => none
  | .add p :: l => if p.identity = id then some (p, deletionsOf l) else firstAdd id l
  | .delete _ :: l => firstAdd id l

/-- The round a deletion asks for, for an account. -/
def cutRound {S : Scheme} (tbl : Consensus.Protocols) (d : DelOp S) (account : Bytes) : Res Unit Nat := do
  let params ← Res.ofOption (Consensus.lookup tbl d.header.upgradeState.current)
  nextRound d.header.body d.ccSigs params.compactCertRounds account

/-- The effect of one deletion on a participation. -/
def DeletedBy {S : Scheme} (E : Enc) (K : Keys S) (tbl : Consensus.Protocols) (d : DelOp S) (p p' : Participation S) : Prop :=
  ∃ n w, cutRound tbl d p.parent = .ok n ∧
    (deleteOldKeys E K p n d.dilution (d.fresh p.identity)) = .ok (p', w)

/-- The effect of several deletions on a participation. -/
def DeletedByAll {S : Scheme} (E : Enc) (K : Keys S) (tbl : Consensus.Protocols) :
    List (DelOp S) → Participation S → Participation S → Prop
  | [], p, p' => p' = p
  | d :: ds, p, p' => ∃ q, DeletedBy E K tbl d p q ∧ DeletedByAll E K tbl ds q p'

/-- The manager's map: no identity twice, each entry under its own identity. -/
structure MgrInv {S : Scheme} (m : Manager S) : Prop where
  nodup : (m.partKeys.map (·.1)).Nodup
  own : ∀ e ∈ m.partKeys, e.2.identity = e.1

theorem deletion_identity {S : Scheme} {E : Enc} {K : Keys S} {p p' : Participation S} {cur dd : Nat}
    {fresh : Nat → S.Sk} {w : List (Name × Bytes)}
    (h : (deleteOldKeys E K p cur dd fresh) = .ok (p', w)) : p'.identity = p.identity ∧
      p'.parent = p.parent ∧ p'.keyDilution = p.keyDilution := by
  obtain ⟨v, _, hv, rfl, _⟩ := deletion_cases h
  have hc := (deleteBefore_signable E _ _ _ _ _ hv).1
  refine ⟨?_, rfl, rfl⟩
  have : v.verifier = p.voting.verifier := by
    rcases deleteBefore_cases E _ _ _ _ hc with ⟨a, b, e⟩ | ⟨a, b, e⟩ | ⟨a, e⟩ | ⟨a, b, c, e⟩ | ⟨a, e⟩ | ⟨k, rest, a, b, c, e⟩
    all_goals (rw [hv] at e; injection e with e; subst e; rfl)
  simp only [Participation.identity, this]

theorem deleteLoop_spec {S : Scheme} (E : Enc) (K : Keys S) (header : Block.HeaderBody)
    (ccSigs : Bytes → Option Nat) (cr dd : Nat) (fresh : Identity → Nat → S.Sk) :
    ∀ (l l' : List (Identity × Participation S)) (w : List (Name × Bytes)),
      (deleteLoop E K header ccSigs cr dd fresh l) = .ok (l', w) →
      List.Forall₂ (fun e e' => e'.1 = e.1 ∧ ∃ n w, (nextRound header ccSigs cr e.2.parent) = .ok n ∧
        (deleteOldKeys E K e.2 n dd (fresh e.1)) = .ok (e'.2, w)) l l'
  | [], l', w, h => by injection h with h; injection h with h _; subst h; exact .nil
  | (id, p) :: l, l', w, h => by
    rw [deleteLoop, Res.bind_eq_ok] at h
    obtain ⟨n, h1, h⟩ := h
    rw [Res.bind_eq_ok] at h
    obtain ⟨⟨p', w1⟩, h2, h⟩ := h
    simp only at h
    rw [Res.bind_eq_ok] at h
    obtain ⟨⟨l1, w2⟩, h3, h⟩ := h
    injection h with h
    injection h with h4 _
    subst h4
    exact .cons ⟨rfl, n, w1, h1, h2⟩ (deleteLoop_spec E K header ccSigs cr dd fresh l l1 w2 h3)

theorem nodup_unique {S : Scheme} {m : Manager S} (h : MgrInv m) {id : Identity} {p q : Participation S}
    (hp : (id, p) ∈ m.partKeys) (hq : (id, q) ∈ m.partKeys) : p = q := by
  have hn := h.nodup
  generalize m.partKeys = l at hn hp hq
  induction l with
  | nil => cases hp
  | cons e l ih =>
    rw [List.map_cons, List.nodup_cons] at hn
    rcases List.mem_cons.1 hp with hp | hp <;> rcases List.mem_cons.1 hq with hq | hq
    · rw [← hp] at hq; injection hq with _ hq; exact hq.symm
    · exact absurd (List.mem_map.2 ⟨_, hq, by rw [← hp]⟩) hn.1
    · exact absurd (List.mem_map.2 ⟨_, hp, by rw [← hq]⟩) hn.1
    · exact ih hn.2 hp hq

theorem forall2_left {α β : Type} {R : α → β → Prop} {l : List α} {l' : List β} (h : List.Forall₂ R l l') :
    ∀ a ∈ l, ∃ b ∈ l', R a b := by
  induction h with
  | nil => simp
  | cons hr _ ih =>
    intro a ha
    rcases List.mem_cons.1 ha with rfl | ha
    · exact ⟨_, List.mem_cons_self, hr⟩
    · obtain ⟨b, hb, hr⟩ := ih a ha
      exact ⟨b, List.mem_cons_of_mem _ hb, hr⟩

theorem forall2_right {α β : Type} {R : α → β → Prop} {l : List α} {l' : List β} (h : List.Forall₂ R l l') :
    ∀ b ∈ l', ∃ a ∈ l, R a b := by
  induction h with
  | nil => simp
  | cons hr _ ih =>
    intro a ha
    rcases List.mem_cons.1 ha with rfl | ha
    · exact ⟨_, List.mem_cons_self, hr⟩
    · obtain ⟨b, hb, hr⟩ := ih a ha
      exact ⟨b, List.mem_cons_of_mem _ hb, hr⟩

theorem mgrDelete_spec {S : Scheme} {E : Enc} {K : Keys S} {tbl : Consensus.Protocols} {m m' : Manager S} {d : DelOp S}
    {w : List (Name × Bytes)} (hm : MgrInv m)
    (h : m.deleteOldKeys E K tbl d.header d.ccSigs d.dilution d.fresh d.order = .ok (m', w)) :
    MgrInv m' ∧ (∀ id p, (id, p) ∈ m.partKeys → ∃ p', (id, p') ∈ m'.partKeys ∧ DeletedBy E K tbl d p p') ∧
    (∀ id p', (id, p') ∈ m'.partKeys → ∃ p, (id, p) ∈ m.partKeys ∧ DeletedBy E K tbl d p p') := by
  rw [Manager.deleteOldKeys, Res.bind_eq_ok] at h
  obtain ⟨params, h1, h⟩ := h
  rw [Res.bind_eq_ok] at h
  obtain ⟨⟨l, w'⟩, h2, h⟩ := h
  injection h with h
  injection h with h3 _
  subst h3
  have hf := deleteLoop_spec _ _ _ _ _ _ _ _ _ _ h2
  have hperm := d.perm m.partKeys
  have hcut : ∀ a n, nextRound d.header.body d.ccSigs params.compactCertRounds a = .ok n → cutRound tbl d a = .ok n := by
    intro a n hn
    rw [cutRound, h1]; exact hn
  have hkeys : l.map (·.1) = (d.order m.partKeys).map (·.1) := by
    clear h2 hperm
    generalize d.order m.partKeys = l0 at hf
    induction hf with
    | nil => rfl
    | cons hr _ ih => rw [List.map_cons, List.map_cons, ih, hr.1]
  refine ⟨⟨?_, ?_⟩, ?_, ?_⟩
  · show (l.map (·.1)).Nodup
    rw [hkeys]
    exact ((hperm.map _).nodup_iff).2 hm.nodup
  · intro e he
    obtain ⟨⟨id, p⟩, ha, hid, n, w, _, h5⟩ := forall2_right hf e he
    rw [(deletion_identity h5).1, hid]
    exact hm.own _ (hperm.mem_iff.1 ha)
  · intro id p hp
    obtain ⟨⟨id', p'⟩, hb, hid, n, w, h4, h5⟩ := forall2_left hf (id, p) (hperm.mem_iff.2 hp)
    simp only at hid
    subst hid
    refine ⟨p', hb, n, w, hcut _ _ h4, ?_⟩
    rw [hm.own _ hp]; exact h5
  · intro id p' hp'
    obtain ⟨⟨id', p⟩, ha, hid, n, w, h4, h5⟩ := forall2_right hf (id, p') hp'
    simp only at hid
    subst hid
    have hin := hperm.mem_iff.1 ha
    refine ⟨p, hin, n, w, hcut _ _ h4, ?_⟩
    rw [hm.own _ hin]; exact h5

theorem add_spec {S : Scheme} {m : Manager S} (hm : MgrInv m) (p : Participation S) :
    MgrInv (m.addParticipation p).1 ∧
    ((∃ q, (p.identity, q) ∈ m.partKeys) → m.addParticipation p = (m, false)) ∧
    ((∀ q, (p.identity, q) ∉ m.partKeys) → m.addParticipation p = (⟨m.partKeys ++ [(p.identity, p)]⟩, true)) := by
  by_cases h : ∃ q, (p.identity, q) ∈ m.partKeys
  · have : m.addParticipation p = (m, false) := by
      rw [Manager.addParticipation, if_pos]
      obtain ⟨q, hq⟩ := h
      exact List.any_eq_true.2 ⟨_, hq, by simp⟩
    exact ⟨by rw [this]; exact hm, fun _ => this, fun hn => absurd h (by push Not; exact hn)⟩
  · push Not at h
    have : m.addParticipation p = (⟨m.partKeys ++ [(p.identity, p)]⟩, true) := by
      rw [Manager.addParticipation, if_neg]
      intro hc
      obtain ⟨⟨id, q⟩, hq, he⟩ := List.any_eq_true.1 hc
      simp only [decide_eq_true_eq] at he
      subst he
      exact h q hq
    refine ⟨?_, fun hn => absurd hn (by push Not; exact h), fun _ => this⟩
    rw [this]
    refine ⟨?_, ?_⟩
    · rw [List.map_append, List.nodup_append]
      refine ⟨hm.nodup, by simp, ?_⟩
      intro a ha b hb
      simp only [List.map_cons, List.map_nil, List.mem_singleton] at hb
      subst hb
      rintro rfl
      obtain ⟨⟨id, q⟩, hq, he⟩ := List.mem_map.1 ha
      simp only at he
      subst he
      exact h q hq
    · intro e he
      rcases List.mem_append.1 he with he | he
      · exact hm.own e he
      · rw [List.mem_singleton.1 he]

/-- What a history makes of the manager's entries. -/
theorem runMgr_spec {S : Scheme} (E : Enc) (K : Keys S) (tbl : Consensus.Protocols) :
    ∀ (ops : List (MgrOp S)) (m m' : Manager S), MgrInv m → runMgr E K tbl m ops = .ok m' →
      MgrInv m' ∧
      (∀ id p, (id, p) ∈ m.partKeys → ∃ p', (id, p') ∈ m'.partKeys ∧ DeletedByAll E K tbl (deletionsOf ops) p p') ∧
      (∀ id p ds, (∀ q, (id, q) ∉ m.partKeys) → firstAdd id ops = some (p, ds) →
        ∃ p', (id, p') ∈ m'.partKeys ∧ DeletedByAll E K tbl ds p p') ∧
      (∀ id p', (id, p') ∈ m'.partKeys → (∃ q, (id, q) ∈ m.partKeys) ∨ ∃ x, firstAdd id ops = some x)
  | [], m, m', hm, h => by
    injection h with h
    subst h
    exact ⟨hm, fun id p hp => ⟨p, hp, rfl⟩, fun id p ds _ h => (by cases h), fun id p' h => Or.inl ⟨p', h⟩⟩
  | .add p :: l, m, m', hm, h => by
    rw [runMgr] at h
    obtain ⟨a1, a2, a3⟩ := add_spec hm p
    obtain ⟨r1, r2, r3, r4⟩ := runMgr_spec E K tbl l _ m' a1 h
    by_cases hin : ∃ q, (p.identity, q) ∈ m.partKeys
    · rw [a2 hin] at r2 r3 r4
      refine ⟨r1, r2, ?_, ?_⟩
      · intro id q ds hn hf
        rw [firstAdd] at hf
        by_cases he : p.identity = id
        · subst he
          obtain ⟨q, hq⟩ := hin
          exact absurd hq (hn q)
        · rw [if_neg he] at hf; exact r3 id q ds hn hf
      · intro id p' hp'
        rcases r4 id p' hp' with h1 | h1
        · exact Or.inl h1
        · rw [firstAdd]
          by_cases he : p.identity = id
          · subst he; exact Or.inl hin
          · rw [if_neg he]; exact Or.inr h1
    · push Not at hin
      rw [a3 hin] at r2 r3 r4
      simp only [List.mem_append, List.mem_singleton, Prod.mk.injEq] at r2 r3 r4
      refine ⟨r1, fun id q hq => r2 id q (Or.inl hq), ?_, ?_⟩
      · intro id q ds hn hf
        rw [firstAdd] at hf
        by_cases he : p.identity = id
        · rw [if_pos he] at hf
          injection hf with hf
          injection hf with h1 h2
          subst h1; subst h2
          exact r2 id p (Or.inr ⟨he.symm, rfl⟩)
        · rw [if_neg he] at hf
          refine r3 id q ds ?_ hf
          rintro x (hx | ⟨rfl, _⟩)
          · exact hn x hx
          · exact he rfl
      · intro id p' hp'
        rw [firstAdd]
        by_cases he : p.identity = id
        · rw [if_pos he]; exact Or.inr ⟨_, rfl⟩
        · rw [if_neg he]
          rcases r4 id p' hp' with ⟨q, hq | ⟨rfl, _⟩⟩ | h1
          · exact Or.inl ⟨q, hq⟩
          · exact absurd rfl he
          · exact Or.inr h1
  | .delete d :: l, m, m', hm, h => by
    rw [runMgr, Res.bind_eq_ok] at h
    obtain ⟨⟨m1, w⟩, h1, h⟩ := h
    obtain ⟨d1, d2, d3⟩ := mgrDelete_spec hm h1
    obtain ⟨r1, r2, r3, r4⟩ := runMgr_spec E K tbl l m1 m' d1 h
    refine ⟨r1, ?_, ?_, ?_⟩
    · intro id p hp
      obtain ⟨q, hq, hd⟩ := d2 id p hp
      obtain ⟨p', hp', hds⟩ := r2 id q hq
      exact ⟨p', hp', q, hd, hds⟩
    · intro id p ds hn hf
      refine r3 id p ds ?_ hf
      intro q hq
      obtain ⟨x, hx, _⟩ := d3 id q hq
      exact hn x hx
    · intro id p' hp'
      rcases r4 id p' hp' with ⟨q, hq⟩ | h2
      · obtain ⟨x, hx, _⟩ := d3 id q hq
        exact Or.inl ⟨x, hx⟩
      · exact Or.inr h2

theorem keys_iff {S : Scheme} {m : Manager S} (hm : MgrInv m) (r : Nat) (p : Participation S) :
    p ∈ m.keys r ↔ (p.identity, p) ∈ m.partKeys ∧ p.firstValid ≤ r ∧ r ≤ p.lastValid := by
  simp only [Manager.keys, List.mem_filter, List.mem_map, overlapsInterval, Nat.lt_irrefl, if_false, decide_eq_true_eq,
    Res.ok.injEq, Bool.decide_and, Bool.and_eq_true, ge_iff_le]
  constructor
  · rintro ⟨⟨e, he, rfl⟩, h⟩
    rw [hm.own e he]
    exact ⟨he, h⟩
  · rintro ⟨h1, h2⟩
    exact ⟨⟨_, h1, rfl⟩, h2⟩

theorem deletedAll_sign {S : Scheme} {K : Keys S} (hK : GoodKeys K) (E : Enc) (tbl : Consensus.Protocols) :
    ∀ (ds : List (DelOp S)) (p p' : Participation S), 0 < p.keyDilution → Certified E p.voting →
      DeletedByAll E K tbl ds p p' →
      p'.identity = p.identity ∧ p'.keyDilution = p.keyDilution ∧ Certified E p'.voting ∧
      ∀ r, Signable p'.voting ⟨r / p.keyDilution, r % p.keyDilution⟩ ↔
        Signable p.voting ⟨r / p.keyDilution, r % p.keyDilution⟩ ∧
        ∀ d ∈ ds, ∀ n, cutRound tbl d p.parent = .ok n → n ≤ r
  | [], p, p', hd, hc, h => by
    rw [DeletedByAll] at h
    subst h
    exact ⟨rfl, rfl, hc, fun r => by simp⟩
  | d :: ds, p, p', hd, hc, h => by
    obtain ⟨q, ⟨n, w, hn, hq⟩, hds⟩ := h
    obtain ⟨_, c1, _, c2⟩ := deletion_sign hK hd hc hq
    obtain ⟨i1, i2, i3⟩ := deletion_identity hq
    obtain ⟨r1, r2, r3, r4⟩ := deletedAll_sign hK E tbl ds q p' (by omega) c1 hds
    refine ⟨r1.trans i1, r2.trans i3, r3, ?_⟩
    intro r
    have := r4 r
    rw [i3, i2] at this
    rw [this, c2 r]
    constructor
    · rintro ⟨⟨a, b⟩, c⟩
      refine ⟨a, ?_⟩
      intro x hx
      rcases List.mem_cons.1 hx with rfl | hx
      · intro k hk; rw [hn] at hk; injection hk with hk; omega
      · exact c x hx
    · rintro ⟨a, b⟩
      exact ⟨⟨a, b d List.mem_cons_self n hn⟩, fun x hx => b x (List.mem_cons_of_mem _ hx)⟩

/-- C30: after any history of additions and deletions a key with a given identity is listed for a round and signs for
it exactly if a participation with that identity was added, its interval covers the round, the participation first added
with it could sign for the round, and no deletion after that was for a later round. -/
theorem C30_available {S : Scheme} {K : Keys S} (hK : GoodKeys K) {E : Enc} (hE : EmptyInvalid S E)
    (hne : Nonempty S.Sk) (tbl : Consensus.Protocols) (ops : List (MgrOp S)) (m : Manager S)
    (hrun : runMgr E K tbl Manager.empty ops = .ok m)
    (hadd : ∀ p, MgrOp.add p ∈ ops → Certified E p.voting ∧ 0 < p.keyDilution ∧ p.keyDilution < u64Lim)
    (id : Identity) (r : Nat) (hr : r + 1 < u64Lim) :
    (∃ p ∈ m.keys r, p.identity = id ∧ CanSign E p r) ↔
    ∃ p0 ds, firstAdd id ops = some (p0, ds) ∧ id.firstValid ≤ r ∧ r ≤ id.lastValid ∧ CanSign E p0 r ∧
      ∀ d ∈ ds, ∀ n, cutRound tbl d id.address = .ok n → n ≤ r := by
  obtain ⟨hm, _, h3, h4⟩ := runMgr_spec E K tbl ops Manager.empty m ⟨by simp [Manager.empty], by simp [Manager.empty]⟩ hrun
  have hfirst : ∀ (l : List (MgrOp S)) p0 ds, firstAdd id l = some (p0, ds) → MgrOp.add p0 ∈ l ∧ p0.identity = id := by
    intro l
    induction l with
    | nil => intro _ _ h; cases h
    | cons o l ih =>
      intro p0 ds h
      cases o with
      | add p =>
        rw [firstAdd] at h
        by_cases he : p.identity = id
        · rw [if_pos he] at h
          injection h with h
          injection h with h1 _
          subst h1
          exact ⟨List.mem_cons_self, he⟩
        · rw [if_neg he] at h
          exact ⟨List.mem_cons_of_mem _ (ih p0 ds h).1, (ih p0 ds h).2⟩
      | delete d =>
        exact ⟨List.mem_cons_of_mem _ (ih p0 ds h).1, (ih p0 ds h).2⟩
  have key : ∀ p0 ds p, firstAdd id ops = some (p0, ds) → (id, p) ∈ m.partKeys → p.identity = id ∧
      (CanSign E p r ↔ CanSign E p0 r ∧ ∀ d ∈ ds, ∀ n, cutRound tbl d id.address = .ok n → n ≤ r) := by
    intro p0 ds p hf hp
    obtain ⟨ha, hid⟩ := hfirst ops p0 ds hf
    obtain ⟨c1, c2, c3⟩ := hadd p0 ha
    obtain ⟨p', hp', hds⟩ := h3 id p0 ds (by simp [Manager.empty]) hf
    rw [← nodup_unique hm hp hp'] at hds
    obtain ⟨s1, s2, s3, s4⟩ := deletedAll_sign hK E tbl ds p0 p c2 c1 hds
    refine ⟨s1.trans hid, ?_⟩
    rw [canSign_iff hK.correct hE hne s3 (by omega) (by omega) r hr, canSign_iff hK.correct hE hne c1 c2 c3 r hr, s2, s4 r]
    rw [← hid]
    rfl
  constructor
  · rintro ⟨p, hp, rfl, hs⟩
    obtain ⟨hin, hv1, hv2⟩ := (keys_iff hm r p).1 hp
    rcases h4 _ p hin with ⟨q, hq⟩ | ⟨⟨p0, ds⟩, hf⟩
    · simp [Manager.empty] at hq
    · obtain ⟨_, hk⟩ := key p0 ds p hf hin
      exact ⟨p0, ds, hf, hv1, hv2, hk.1 hs⟩
  · rintro ⟨p0, ds, hf, hv1, hv2, hs⟩
    obtain ⟨p, hin, _⟩ := h3 id p0 ds (by simp [Manager.empty]) hf
    obtain ⟨hid, hk⟩ := key p0 ds p hf hin
    refine ⟨p, (keys_iff hm r p).2 ⟨by rw [hid]; exact hin, ?_, ?_⟩, hid, hk.2 hs⟩
    · rw [← hid] at hv1; exact hv1
    · rw [← hid] at hv2; exact hv2

theorem firstAdd_iff {S : Scheme} (id : Identity) (l : List (MgrOp S)) :
    (∃ x, firstAdd id l = some x) ↔ ∃ p, MgrOp.add p ∈ l ∧ p.identity = id := by
  induction l with
  | nil => simp [firstAdd]
  | cons o l ih =>
    cases o with
    | add p =>
      rw [firstAdd]
      by_cases he : p.identity = id
      · rw [if_pos he]
        exact ⟨fun _ => ⟨p, List.mem_cons_self, he⟩, fun _ => ⟨_, rfl⟩⟩
      · rw [if_neg he, ih]
        constructor
        · rintro ⟨q, h1, h2⟩; exact ⟨q, List.mem_cons_of_mem _ h1, h2⟩
        · rintro ⟨q, h1, h2⟩
          rcases List.mem_cons.1 h1 with h1 | h1
          · injection h1 with h1; subst h1; exact absurd h2 he
          · exact ⟨q, h1, h2⟩
    | delete d =>
      rw [firstAdd, ih]
      simp

/-- C30: what is listed for a round depends only on what was added: the listed identities are those added whose interval
covers the round, each once. In particular a key stays listed after its secrets for the round were deleted. -/
theorem C30_listed {S : Scheme} (E : Enc) (K : Keys S) (tbl : Consensus.Protocols) (ops : List (MgrOp S)) (m : Manager S)
    (hrun : runMgr E K tbl Manager.empty ops = .ok m) (r : Nat) :
    ((m.keys r).map (·.identity)).Nodup ∧
    ∀ id, id ∈ (m.keys r).map (·.identity) ↔
      (∃ p, MgrOp.add p ∈ ops ∧ p.identity = id) ∧ id.firstValid ≤ r ∧ r ≤ id.lastValid := by
  obtain ⟨hm, _, h3, h4⟩ := runMgr_spec E K tbl ops Manager.empty m ⟨by simp [Manager.empty], by simp [Manager.empty]⟩ hrun
  constructor
  · have h1 : (m.keys r).map (·.identity) = ((m.partKeys.filter fun e => overlapsInterval e.2 r r = .ok true).map (·.1)) := by
      rw [Manager.keys, List.filter_map, List.map_map]
      refine List.map_congr_left ?_
      intro e he
      exact hm.own e (List.mem_filter.1 he).1
    rw [h1]
    exact hm.nodup.sublist (List.filter_sublist.map _)
  · intro id
    rw [← firstAdd_iff id ops, List.mem_map]
    constructor
    · rintro ⟨p, hp, rfl⟩
      obtain ⟨hin, hv⟩ := (keys_iff hm r p).1 hp
      refine ⟨?_, hv⟩
      rcases h4 _ p hin with ⟨q, hq⟩ | h
      · simp [Manager.empty] at hq
      · exact h
    · rintro ⟨⟨⟨p0, ds⟩, hf⟩, hv⟩
      obtain ⟨p, hin, _⟩ := h3 id p0 ds (by simp [Manager.empty]) hf
      have hid := hm.own _ hin
      simp only at hid
      exact ⟨p, (keys_iff hm r p).2 ⟨by rw [hid]; exact hin, by rw [← hid] at hv; exact hv⟩, hid⟩

/-- Two participations with the same parent, validity interval, voting key and selection key. -/
def SamePublic {S : Scheme} (p q : Participation S) : Prop :=
  p.parent = q.parent ∧ p.firstValid = q.firstValid ∧ p.lastValid = q.lastValid ∧
    p.voting.verifier = q.voting.verifier ∧ p.vrf.pub = q.vrf.pub

/-- C30: what makes two participations the same key for the manager. -/
theorem C30_identity {S : Scheme} (p q : Participation S) : p.identity = q.identity ↔ SamePublic p q := by
  simp [Participation.identity, SamePublic]

/-- C30: adding a participation reports whether its public part (parent, interval, voting and selection key) was new,
and does nothing if it was not. -/
theorem C30_add_once {S : Scheme} (E : Enc) (K : Keys S) (tbl : Consensus.Protocols) (ops : List (MgrOp S)) (m : Manager S)
    (hrun : runMgr E K tbl Manager.empty ops = .ok m) (p : Participation S) :
    ((m.addParticipation p).2 = true ↔ ¬ ∃ q, MgrOp.add q ∈ ops ∧ SamePublic q p) ∧
    ((m.addParticipation p).2 = false → (m.addParticipation p).1 = m) ∧
    (m.addParticipation p).1.addParticipation p = ((m.addParticipation p).1, false) := by
  simp only [← C30_identity]
  obtain ⟨hm, _, h3, h4⟩ := runMgr_spec E K tbl ops Manager.empty m ⟨by simp [Manager.empty], by simp [Manager.empty]⟩ hrun
  have hhave : (∃ q, (p.identity, q) ∈ m.partKeys) ↔ ∃ q, MgrOp.add q ∈ ops ∧ q.identity = p.identity := by
    rw [← firstAdd_iff]
    constructor
    · rintro ⟨q, hq⟩
      rcases h4 _ q hq with ⟨x, hx⟩ | h
      · simp [Manager.empty] at hx
      · exact h
    · rintro ⟨⟨p0, ds⟩, h⟩
      obtain ⟨q, hq, _⟩ := h3 _ p0 ds (by simp [Manager.empty]) h
      exact ⟨q, hq⟩
  obtain ⟨a1, a2, a3⟩ := add_spec hm p
  obtain ⟨_, b2, _⟩ := add_spec a1 p
  by_cases h : ∃ q, (p.identity, q) ∈ m.partKeys
  · rw [← hhave]
    have := a2 h
    rw [this] at b2 ⊢
    exact ⟨by simp [h], fun _ => rfl, b2 h⟩
  · rw [← hhave]
    have := a3 (by push Not at h; exact h)
    rw [this] at b2 ⊢
    exact ⟨by simp [h], (fun hf => nomatch hf), b2 ⟨p, by simp⟩⟩

/-- C30: `has_live_keys` is true exactly if a key listed for some round of the interval exists; asking for an empty
interval panics as soon as there is a key. -/
theorem C30_has_live_keys {S : Scheme} (m : Manager S) (hm : MgrInv m) (first last : Nat) :
    (first ≤ last → ∃ b, m.hasLiveKeys first last = .ok b ∧
      (b = true ↔ ∃ r, first ≤ r ∧ r ≤ last ∧ ∃ p ∈ m.partKeys, p.2.firstValid ≤ last ∧ first ≤ p.2.lastValid) ∧
      ((∀ p ∈ m.partKeys, p.2.firstValid ≤ p.2.lastValid) → (b = true ↔ ∃ r, first ≤ r ∧ r ≤ last ∧ m.keys r ≠ []))) ∧
    (last < first → m.partKeys ≠ [] → m.hasLiveKeys first last = .panic) := by
  constructor
  · intro h
    have hany : ∀ l : List (Participation S), ∃ b, anyOverlap first last l = .ok b ∧
        (b = true ↔ ∃ p ∈ l, p.firstValid ≤ last ∧ first ≤ p.lastValid) := by
      intro l
      induction l with
      | nil => exact ⟨false, rfl, by simp⟩
      | cons p l ih =>
        obtain ⟨b, h1, h2⟩ := ih
        rw [anyOverlap, overlapsInterval, if_neg (by omega), Res.ok_bind]
        by_cases hp : p.firstValid ≤ last ∧ first ≤ p.lastValid
        · exact ⟨true, by simp [hp], by simp [hp]⟩
        · refine ⟨b, by simp [hp, h1], ?_⟩
          rw [h2]
          constructor
          · rintro ⟨q, h3, h4⟩; exact ⟨q, List.mem_cons_of_mem _ h3, h4⟩
          · rintro ⟨q, h3, h4⟩
            rcases List.mem_cons.1 h3 with rfl | h3
            · exact absurd h4 hp
            · exact ⟨q, h3, h4⟩
    obtain ⟨b, h1, h2⟩ := hany (m.partKeys.map (·.2))
    refine ⟨b, h1, ?_, ?_⟩
    · rw [h2]
      constructor
      · rintro ⟨p, hp, h3⟩
        obtain ⟨e, he, rfl⟩ := List.mem_map.1 hp
        exact ⟨first, le_refl _, h, e, he, h3⟩
      · rintro ⟨_, _, _, e, he, h3⟩
        exact ⟨e.2, List.mem_map.2 ⟨e, he, rfl⟩, h3⟩
    · intro hord
      rw [h2]
      constructor
      · rintro ⟨p, hp, h3⟩
        obtain ⟨e, he, rfl⟩ := List.mem_map.1 hp
        have := hord e he
        refine ⟨max first e.2.firstValid, by omega, by omega, ?_⟩
        intro hnil
        have hk : e.2 ∈ m.keys (max first e.2.firstValid) :=
          (keys_iff hm _ _).2 ⟨by rw [hm.own e he]; exact he, by omega, by omega⟩
        rw [hnil] at hk
        cases hk
      · rintro ⟨r, h3, h4, hk⟩
        obtain ⟨p, hp⟩ := List.exists_mem_of_ne_nil _ hk
        obtain ⟨h5, h6⟩ := (keys_iff hm r p).1 hp
        exact ⟨p, List.mem_map.2 ⟨_, h5, rfl⟩, by omega, by omega⟩
  · intro h hne
    rw [Manager.hasLiveKeys]
    cases hl : m.partKeys with
    | nil => exact absurd hl hne
    | cons e l => rw [List.map_cons, anyOverlap, overlapsInterval, if_pos h]; rfl

/-- C30: a deletion after a block never drops the key of the next round, nor (while compact certificates are made) the
key of the next one not signed yet. -/
theorem C30_needed_kept (header : Block.HeaderBody) (ccSigs : Bytes → Option Nat) (certRounds : Nat) (a : Bytes) (n : Nat)
    (h : nextRound header ccSigs certRounds a = .ok n) :
    n ≤ header.round + 1 ∧
    ∃ c, header.compactCerts = some c ∧
      (c.nextRound = 0 → n = header.round + 1) ∧
      (0 < c.nextRound → ∃ r, ccSigs a = some r ∧
        n = min (header.round + 1) (if r ≤ c.nextRound then c.nextRound + 1 else r + certRounds + 1)) := by
  rw [nextRound, addU64] at h
  split at h
  · rw [Res.ok_bind] at h
    cases hc : header.compactCerts with
    | none => rw [hc] at h; cases h
    | some c =>
      rw [hc, Res.ofOption_some, Res.ok_bind] at h
      by_cases h0 : c.nextRound > 0
      · rw [if_pos h0, addU64] at h
        split at h
        · rw [Res.ok_bind] at h
          cases hs : ccSigs a with
          | none => rw [hs] at h; cases h
          | some r =>
            rw [hs, Res.ofOption_some, Res.ok_bind] at h
            have hn : n = min (header.round + 1) (if r ≤ c.nextRound then c.nextRound + 1 else r + certRounds + 1) := by
              by_cases hr : r ≥ c.nextRound + 1
              · rw [if_neg (show ¬ r ≤ c.nextRound by omega)]
                rw [if_pos hr, addU64] at h
                split at h
                · rw [Res.ok_bind, addU64] at h
                  split at h
                  · rw [Res.ok_bind] at h
                    injection h with h
                    split at h <;> omega
                  · cases h
                · cases h
              · rw [if_pos (show r ≤ c.nextRound by omega)]
                rw [if_neg hr, Res.ok_bind] at h
                injection h with h
                split at h <;> omega
            exact ⟨by omega, c, rfl, by omega, fun _ => ⟨r, rfl, hn⟩⟩
        · cases h
      · rw [if_neg h0] at h
        injection h with h
        exact ⟨by omega, c, rfl, fun _ => h.symm, fun h1 => absurd h1 h0⟩
  · cases h

/-! ## C92: deletion with the headers of this node -/

theorem deleteLoop_panics {S : Scheme} (E : Enc) (K : Keys S) (header : Block.HeaderBody) (ccSigs : Bytes → Option Nat)
    (cr dd : Nat) (fresh : Identity → Nat → S.Sk) (h : header.compactCerts = none)
    (l : List (Identity × Participation S)) (hl : l ≠ []) : deleteLoop E K header ccSigs cr dd fresh l = .panic := by
  cases l with
  | nil => exact absurd rfl hl
  | cons e l =>
    have : nextRound header ccSigs cr e.2.parent = .panic := by
      rw [nextRound, addU64, h]
      split <;> rfl
    rw [deleteLoop, this]; rfl

/-- C92 fails: with the header of any block made by `Block::new` or `Genesis::create_block`, deleting old keys panics as
soon as one key is managed, because such headers have no compact certificate state. -/
theorem C92_violated {AD : Type} (env : Block.Env AD) {S : Scheme} (E : Enc) (K : Keys S) (tbl : Consensus.Protocols)
    (m : Manager S) (hm : m.partKeys ≠ []) (d : DelOp S) :
    ((∃ now prev b prev', Block.newBlock env tbl now prev = .ok (b, prev') ∧ d.header = b.header) ∨
     (∃ proto g id hash b, Block.createBlock env tbl proto g id hash = .ok b ∧ d.header = b.header)) →
    m.deleteOldKeys E K tbl d.header d.ccSigs d.dilution d.fresh d.order = .panic := by
  intro h
  have hnone : d.header.body.compactCerts = none := by
    rcases h with ⟨now, prev, b, prev', h1, h2⟩ | ⟨proto, g, id, hash, b, h1, h2⟩
    · rw [h2]
      rw [Block.newBlock, Res.bind_eq_ok] at h1
      obtain ⟨⟨vote, state⟩, _, h1⟩ := h1
      rw [Res.bind_eq_ok] at h1
      obtain ⟨params, _, h1⟩ := h1
      rw [Res.bind_eq_ok] at h1
      obtain ⟨ts, _, h1⟩ := h1
      rw [Res.bind_eq_ok] at h1
      obtain ⟨rnd, _, h1⟩ := h1
      rw [Res.bind_eq_ok] at h1
      obtain ⟨root, _, h1⟩ := h1
      injection h1 with h1
      injection h1 with h1 _
      rw [← h1]
    · rw [h2]
      rw [Block.createBlock, Res.bind_eq_ok] at h1
      obtain ⟨params, _, h1⟩ := h1
      rw [Res.bind_eq_ok] at h1
      obtain ⟨rew, _, h1⟩ := h1
      injection h1 with h1
      rw [← h1]
  have hne : d.order m.partKeys ≠ [] := by
    intro hn
    have := d.perm m.partKeys
    rw [hn] at this
    exact hm this.symm.eq_nil
  rw [Manager.deleteOldKeys]
  cases Consensus.lookup tbl d.header.upgradeState.current with
  | none => rfl
  | some params =>
    rw [Res.ofOption_some, Res.ok_bind, deleteLoop_panics _ _ _ _ _ _ _ hnone _ hne]
    rfl

/-- C92, the part that holds: deletion succeeds if the header has a compact certificate state and, once certificates
are made, every account has a last signed round. Missing: the headers this node makes have no such state. -/
theorem C92_deletes_partial {S : Scheme} (E : Enc) (K : Keys S) (tbl : Consensus.Protocols) (m : Manager S) (d : DelOp S)
    (params : Consensus.Params) (c : Block.CertState)
    (hp : Consensus.lookup tbl d.header.upgradeState.current = some params)
    (hc : d.header.body.compactCerts = some c) (hr : d.header.body.round + 2 < u64Lim) (hc2 : c.nextRound + 1 < u64Lim)
    (hs : 0 < c.nextRound → ∀ e ∈ m.partKeys, ∃ r, d.ccSigs e.2.parent = some r ∧
      r + params.compactCertRounds + 1 < u64Lim)
    (hd : ∀ e ∈ m.partKeys, 0 < e.2.keyDilution ∨ 0 < d.dilution) :
    ∃ m' w, m.deleteOldKeys E K tbl d.header d.ccSigs d.dilution d.fresh d.order = .ok (m', w) := by
  have hloop : ∀ l : List (Identity × Participation S), (∀ e ∈ l, e ∈ m.partKeys) → ∃ l' w,
      deleteLoop E K d.header.body d.ccSigs params.compactCertRounds d.dilution d.fresh l = .ok (l', w) := by
    intro l
    induction l with
    | nil => intro _; exact ⟨_, _, rfl⟩
    | cons e l ih =>
      intro hl
      obtain ⟨id, p⟩ := e
      obtain ⟨l', w, hl'⟩ := ih (fun e he => hl e (List.mem_cons_of_mem _ he))
      have he := hl _ List.mem_cons_self
      have hn : ∃ n, nextRound d.header.body d.ccSigs params.compactCertRounds p.parent = .ok n := by
        rw [nextRound, addU64, if_pos (by omega), Res.ok_bind, hc, Res.ofOption_some, Res.ok_bind]
        by_cases h0 : c.nextRound > 0
        · obtain ⟨r, h1, h2⟩ := hs h0 _ he
          rw [if_pos h0, addU64, if_pos hc2, Res.ok_bind, h1, Res.ofOption_some, Res.ok_bind]
          by_cases hr : r ≥ c.nextRound + 1
          · rw [if_pos hr, addU64, if_pos (by omega), Res.ok_bind, addU64, if_pos (by omega), Res.ok_bind]
            exact ⟨_, rfl⟩
          · rw [if_neg hr, Res.ok_bind]
            exact ⟨_, rfl⟩
        · rw [if_neg h0]; exact ⟨_, rfl⟩
      obtain ⟨n, hn⟩ := hn
      have hle := (C30_needed_kept _ _ _ _ _ hn).1
      obtain ⟨p', w', hp'⟩ := C29_total E K p n d.dilution (d.fresh id) (hd _ he) (by omega)
      refine ⟨(id, p') :: l', w' ++ w, ?_⟩
      rw [deleteLoop, hn, Res.ok_bind, hp', Res.ok_bind]
      simp only
      rw [hl', Res.ok_bind]
  obtain ⟨l', w, h⟩ := hloop (d.order m.partKeys) (fun e he => (d.perm _).mem_iff.1 he)
  refine ⟨⟨l'⟩, w, ?_⟩
  rw [Manager.deleteOldKeys, hp, Res.ofOption_some, Res.ok_bind, h, Res.ok_bind]

/-! ## C91: several managed keys share one store -/

theorem deleteLoop_writes {S : Scheme} (E : Enc) (K : Keys S) (header : Block.HeaderBody) (ccSigs : Bytes → Option Nat)
    (cr dd : Nat) (fresh : Identity → Nat → S.Sk) :
    ∀ (l l' : List (Identity × Participation S)) (w : List (Name × Bytes)),
      deleteLoop E K header ccSigs cr dd fresh l = .ok (l', w) →
      w = l'.map fun e => (Name.voting, enc (secretsMP K e.2.voting))
  | [], l', w, h => by injection h with h; injection h with h1 h2; subst h1; subst h2; rfl
  | (id, p) :: l, l', w, h => by
    rw [deleteLoop, Res.bind_eq_ok] at h
    obtain ⟨n, h1, h⟩ := h
    rw [Res.bind_eq_ok] at h
    obtain ⟨⟨p', w1⟩, h2, h⟩ := h
    simp only at h
    rw [Res.bind_eq_ok] at h
    obtain ⟨⟨l1, w2⟩, h3, h⟩ := h
    injection h with h
    injection h with h4 h5
    subst h4; subst h5
    obtain ⟨v, _, _, h6, h7⟩ := deletion_cases h2
    rw [deleteLoop_writes E K header ccSigs cr dd fresh l l1 w2 h3, h7, h6]
    rfl

theorem inserts_voting (s : Store) : ∀ (l : List Bytes) (b : Bytes) (n : Name),
    (s.inserts ((l ++ [b]).map fun x => (Name.voting, x))) n = if n = .voting then some b else s n := by
  intro l
  induction l generalizing s with
  | nil => intro b n; rfl
  | cons a l ih =>
    intro b n
    rw [List.cons_append, List.map_cons, Store.inserts, ih, Store.insert]
    split <;> rfl

/-- C91: after the manager deleted old keys, the store holds the voting secrets of the participation handled last,
whatever participation it held before. -/
theorem C91_last_wins {S : Scheme} {K : Keys S} (hK : GoodKeys K) (E : Enc) (tbl : Consensus.Protocols) (m m' : Manager S)
    (d : DelOp S) (w : List (Name × Bytes))
    (h : m.deleteOldKeys E K tbl d.header d.ccSigs d.dilution d.fresh d.order = .ok (m', w)) (hne : m'.partKeys ≠ [])
    (s : Store) (p : Participation S) (hp : PartOk K p) (hs : Holds K s p)
    (hok : SecretsOk K (m'.partKeys.getLast hne).2.voting) :
    restore K (s.inserts w) = .ok { p with voting := (m'.partKeys.getLast hne).2.voting } := by
  rw [Manager.deleteOldKeys, Res.bind_eq_ok] at h
  obtain ⟨params, _, h⟩ := h
  rw [Res.bind_eq_ok] at h
  obtain ⟨⟨l, w'⟩, h2, h⟩ := h
  injection h with h
  injection h with h3 h4
  subst h3; subst h4
  have hw := deleteLoop_writes _ _ _ _ _ _ _ _ _ _ h2
  simp only at hne hok ⊢
  have hsplit : w' = ((l.dropLast.map (fun e => enc (secretsMP K e.2.voting))) ++
      [enc (secretsMP K (l.getLast hne).2.voting)]).map fun x => (Name.voting, x) := by
    rw [hw]
    conv_lhs => rw [← List.dropLast_append_getLast hne]
    simp [List.map_append, List.map_map, Function.comp_def]
  have hp' : PartOk K { p with voting := (l.getLast hne).2.voting } :=
    ⟨hp.parent, hp.vrfPriv, hp.vrfPub, hok, hp.firstValid, hp.lastValid, hp.keyDilution⟩
  refine restore_holds hK hp' ?_
  simp only [Holds, persist, List.mem_cons, List.not_mem_nil, or_false, forall_eq_or_imp, forall_eq] at hs
  rw [hsplit]
  simp only [Holds, persist, inserts_voting, List.mem_cons, List.not_mem_nil, or_false, forall_eq_or_imp, forall_eq]
  simp [hs]
  rfl

/-- A header with a compact certificate state, for examples. -/
def certHeader : Block.BlockHeader :=
  ⟨⟨5, Tx.zero32, Tx.zero32, Tx.zero32, 10, [103], List.replicate 32 3, Block.RewardsState.default,
    Block.UpgradeVote.default, 0, some ⟨Tx.zero32, 0, 0⟩⟩, { Block.UpgradeState.default with current := .v29 }⟩

/-- A deletion after that header, for examples. -/
def certDeletion : DelOp byteScheme := ⟨certHeader, fun _ => none, 10, fun _ _ => (9 : UInt8), id, fun l => .refl l⟩

/-- Example manager with two participations. -/
def twoKeys : Manager byteScheme := ((Manager.empty.addParticipation (toyPart 1)).1.addParticipation (toyPart 2)).1

theorem twoKeys_keys : twoKeys.partKeys = [((toyPart 1).identity, toyPart 1), ((toyPart 2).identity, toyPart 2)] := by
  have h : ¬ (toyPart 1).identity = (toyPart 2).identity := by decide
  simp [twoKeys, Manager.addParticipation, Manager.empty, h]

/-- C92 example: the example deletion succeeds, although the account never signed a certificate. -/
theorem certDeletion_ok (m : Manager byteScheme) (hm : ∀ e ∈ m.partKeys, 0 < e.2.keyDilution) :
    ∃ m' w, m.deleteOldKeys toyOtsEnc byteKeys toyTable certDeletion.header certDeletion.ccSigs
      certDeletion.dilution certDeletion.fresh certDeletion.order = .ok (m', w) :=
  C92_deletes_partial toyOtsEnc byteKeys toyTable m certDeletion _ ⟨Tx.zero32, 0, 0⟩ rfl rfl (by decide) (by decide)
    (fun h => absurd h (by decide)) (fun e he => Or.inl (hm e he))

example : ∃ m' w, twoKeys.deleteOldKeys toyOtsEnc byteKeys toyTable certDeletion.header certDeletion.ccSigs
    certDeletion.dilution certDeletion.fresh certDeletion.order = .ok (m', w) := by
  refine certDeletion_ok _ ?_
  rw [twoKeys_keys]
  simp [toyPart]

/-- C91 fails: two participations are managed, the first is the stored one; after one deletion the store has the first
account with the voting secrets of the second, for which its registered key does not verify. -/
theorem C91_violated : ∃ (s : Store) (m m' : Manager byteScheme) (d : DelOp byteScheme) (w : List (Name × Bytes))
    (stored other back : Participation byteScheme),
    runMgr toyOtsEnc byteKeys toyTable Manager.empty [.add stored, .add other] = .ok m ∧
    restore byteKeys s = .ok stored ∧
    m.deleteOldKeys toyOtsEnc byteKeys toyTable d.header d.ccSigs d.dilution d.fresh d.order = .ok (m', w) ∧
    restore byteKeys (s.inserts w) = .ok back ∧
    back.parent = stored.parent ∧ back.voting.verifier = other.voting.verifier ∧
    other.voting.verifier ≠ stored.voting.verifier := by
  have hold : Holds byteKeys (Store.inserts (fun _ => none) (persist byteKeys (toyPart 1))) (toyPart 1) := by
    simp [Holds, persist, Store.inserts, Store.insert]
  have hpos : ∀ e ∈ twoKeys.partKeys, 0 < e.2.keyDilution := by rw [twoKeys_keys]; simp [toyPart]
  obtain ⟨m', w, h⟩ := certDeletion_ok twoKeys hpos
  obtain ⟨l, w', p1, p2, hl, hv1, hok⟩ : ∃ l w', ∃ p1 p2 : Identity × Participation byteScheme, l = [p1, p2] ∧
      m' = ⟨l⟩ ∧ p2.2.voting.verifier = (toyPart 2).voting.verifier ∧ SecretsOk byteKeys p2.2.voting ∧ w' = w := by
    have h' := h
    rw [Manager.deleteOldKeys, Res.bind_eq_ok] at h'
    obtain ⟨params, _, h'⟩ := h'
    rw [Res.bind_eq_ok] at h'
    obtain ⟨⟨l, w'⟩, h2, h'⟩ := h'
    injection h' with h'
    injection h' with h3 h4
    have hf := deleteLoop_spec _ _ _ _ _ _ _ _ _ _ h2
    have ho : certDeletion.order twoKeys.partKeys =
      [((toyPart 1).identity, toyPart 1), ((toyPart 2).identity, toyPart 2)] := twoKeys_keys
    rw [ho] at hf
    cases hf with
    | cons hr hf =>
      cases hf with
      | cons hr2 hf =>
        cases hf with
        | nil =>
          obtain ⟨_, n, w2, _, h6⟩ := hr2
          refine ⟨_, w', _, _, rfl, h3.symm, ?_, ?_, h4⟩
          · have := (deletion_identity h6).1
            exact congrArg Identity.voteId this
          · obtain ⟨v, hd, hv, e1, _⟩ := deletion_cases h6
            rw [e1]
            exact deleteBefore_ok byteKeys_good hv (toyPart_ok 2).voting (by decide) (Nat.mod_lt _ hd)
  subst hl
  have hm' := hv1
  subst hm'
  refine ⟨_, twoKeys, _, certDeletion, w, toyPart 1, toyPart 2, _, rfl,
    C28_roundtrip byteKeys_good (fun _ => none) _ (toyPart_ok 1), h,
    C91_last_wins byteKeys_good toyOtsEnc toyTable twoKeys _ certDeletion w h (by simp) _ (toyPart 1) (toyPart_ok 1) hold
      hok.2.1, rfl, hok.1, by decide⟩

/-- C91, the part that holds: with a single managed participation, the store has it before and after a deletion.
Missing: several participations, which share one store. -/
theorem C91_single_partial {S : Scheme} {K : Keys S} (hK : GoodKeys K) (E : Enc) (tbl : Consensus.Protocols)
    (m m' : Manager S) (d : DelOp S) (w : List (Name × Bytes)) (id : Identity) (p : Participation S)
    (hm : m.partKeys = [(id, p)]) (hp : PartOk K p) (hdil : (if p.keyDilution = 0 then d.dilution else p.keyDilution) < u32Lim)
    (s : Store) (hs : Holds K s p)
    (h : m.deleteOldKeys E K tbl d.header d.ccSigs d.dilution d.fresh d.order = .ok (m', w)) :
    ∃ p', m'.partKeys = [(id, p')] ∧ Holds K (s.inserts w) p' ∧ PartOk K p' ∧
      ∀ k, restore K (s.inserts (w.take k)) = .ok p ∨ restore K (s.inserts (w.take k)) = .ok p' := by
  rw [Manager.deleteOldKeys, Res.bind_eq_ok] at h
  obtain ⟨params, _, h⟩ := h
  rw [Res.bind_eq_ok] at h
  obtain ⟨⟨l, w'⟩, h2, h⟩ := h
  injection h with h
  injection h with h3 h4
  subst h3; subst h4
  have ho : d.order m.partKeys = [(id, p)] := by
    have := d.perm m.partKeys
    rw [hm] at this ⊢
    exact List.perm_singleton.1 this
  rw [ho, deleteLoop, Res.bind_eq_ok] at h2
  obtain ⟨n, _, h2⟩ := h2
  rw [Res.bind_eq_ok] at h2
  obtain ⟨⟨p', w1⟩, h5, h2⟩ := h2
  simp only [deleteLoop, Res.ok_bind] at h2
  injection h2 with h2
  injection h2 with h6 h7
  subst h6; subst h7
  rw [List.append_nil]
  obtain ⟨_, _, a3, _, a5, a6⟩ := C29_crash_safe hK E s p p' n d.dilution (d.fresh id) w1 hp hdil hs h5
  exact ⟨p', rfl, a5, a6, a3⟩

example : ∃ m' w p', (Manager.empty.addParticipation (toyPart 1)).1.deleteOldKeys toyOtsEnc byteKeys toyTable
      certDeletion.header certDeletion.ccSigs certDeletion.dilution certDeletion.fresh certDeletion.order = .ok (m', w) ∧
    m'.partKeys = [((toyPart 1).identity, p')] ∧
    restore byteKeys (Store.inserts (Store.inserts (fun _ => none) (persist byteKeys (toyPart 1))) w) = .ok p' := by
  obtain ⟨m', w, h⟩ := certDeletion_ok (Manager.empty.addParticipation (toyPart 1)).1 (by
    simp [Manager.addParticipation, Manager.empty, toyPart])
  have hold : Holds byteKeys (Store.inserts (fun _ => none) (persist byteKeys (toyPart 1))) (toyPart 1) := by
    simp [Holds, persist, Store.inserts, Store.insert]
  obtain ⟨p', h1, h2, h3, _⟩ := C91_single_partial byteKeys_good toyOtsEnc toyTable _ m' certDeletion w (toyPart 1).identity
    (toyPart 1) (by simp [Manager.addParticipation, Manager.empty]) (toyPart_ok 1) (by decide) _ hold h
  exact ⟨m', w, p', h, h1, restore_holds byteKeys_good h3 h2⟩

-- the example history: both keys are listed for round 9, none for round 10
example : (twoKeys.keys 9).map (·.parent) = [List.replicate 32 1, List.replicate 32 2] ∧ (twoKeys.keys 10).length = 0 ∧
    twoKeys.hasLiveKeys 9 20 = .ok true ∧ twoKeys.hasLiveKeys 10 20 = .ok false := by
  simp only [Manager.keys, Manager.hasLiveKeys, twoKeys_keys]
  decide

example : twoKeys.hasLiveKeys 10 9 = .panic := by
  refine (C30_has_live_keys twoKeys ⟨?_, ?_⟩ 10 9).2 (by decide) ?_ <;> rw [twoKeys_keys]
  · decide
  · simp
  · simp

-- with a certificate due in round 3 and none signed, keys are kept from round 4 on
example : nextRound { certHeader.body with compactCerts := some ⟨Tx.zero32, 0, 3⟩ } (fun _ => some 0) 128 [] = .ok 4 ∧
    nextRound certHeader.body (fun _ => none) 128 [] = .ok 6 := by decide

/-! ## C93: registering participation keys -/

/-- C93: the registration transaction of freshly generated participation keys is well formed, and what it registers is
a voting key under which the generated keys sign every round of the registered interval. -/
theorem C93_registers {G : Type} [AddCommGroup G] {S : Scheme} {K : Keys S} (hK : GoodKeys K) (E : Enc)
    (C : Vrf.Curve G) (master : S.Sk) (eph : Nat → S.Sk) (seed parent : Bytes) (first last d : Nat)
    (h : first ≤ last) (hlast : 0 < last) (hd : 0 < d) (hl : last + 1 < u64Lim)
    (hv : S.pub master ≠ defaultPk) (hvrf : (Vrf.fromSeed C seed).pub ≠ Tx.zero32)
    (fee fv lv : Nat) (lease cc : Bytes) (spec : Tx.SpecialAddresses) (params : Consensus.Params) (hp : ParamsFit params)
    (hfee : params.enableFeePooling = true ∨ params.minTxFee < fee) (hord : fv ≤ lv) (hlife : lv ≤ fv + params.maxTxLife)
    (hlv : lv + 1 < 2 ^ 64) (hfirst : first ≤ lv + 1) (hz : parent ≠ Tx.zero32) (hpool : parent ≠ spec.rewardsPool)
    (hlease : params.supportTransactionLeases = true ∨ lease = Tx.zero32) :
    ∃ p f, fillDb E K C master eph seed parent first last d = .ok (p, persist K p) ∧
      Tx.isWellFormed cc (registrationTx p fee fv lv lease) spec params = .ok () ∧
      (registrationTx p fee fv lv lease).header.sender = parent ∧
      (registrationTx p fee fv lv lease).fields = .keyreg f ∧
      f.voteFirst = first ∧ f.voteLast = last ∧ f.nonparticipation = false ∧ f.selectionPk = (Vrf.fromSeed C seed).pub ∧
      ∀ r, first ≤ r → r ≤ last → ∀ msg fresh, ∃ (id : Ident) (o : OTS), (roundId r f.voteKeyDilution : Res Unit Ident) = .ok id ∧
        sign E p.voting id msg fresh = .ok o ∧ o.verify S E id msg f.votePk = true := by
  obtain ⟨p, h1, h2, h3, h4, h5, h6, h7, _, _, _⟩ := fillDb_ok E K C master eph seed parent first last d h hd hl hK.correct
  obtain ⟨q, g1, _, _, _, _, g2⟩ := C27_covers_interval hK E C master eph seed parent first last d h hd hl
  rw [h1] at g1
  injection g1 with g1
  injection g1 with g1 _
  subst g1
  refine ⟨p, _, h1, ?_, h2, rfl, h4, h5, rfl, by rw [← h3], g2⟩
  have hfit : FitsMachine (registrationTx p fee fv lv lease) params := fun _ _ => hlv
  rw [wellFormed_iff _ _ _ _ hp hfit]
  refine ⟨⟨⟨fun _ => Or.inl ⟨?_, ?_, ?_, ?_, ?_, ?_⟩, fun h => nomatch h⟩, ?_, hord, hlife, ?_, ?_, ?_, ?_, ?_, ?_⟩, ?_⟩
  · rw [h7]; exact hv
  · rw [h3]; exact hvrf
  · show p.keyDilution ≠ 0; omega
  · rw [h4, h5]; exact h
  · show p.lastValid ≠ 0; omega
  · rw [h4]; exact hfirst
  · rcases hfee with h | h
    · exact Or.inl h
    · exact Or.inr (Or.inr (le_of_lt h))
  · exact Nat.zero_le _
  · show p.parent ≠ _; rw [h2]; exact hz
  · show p.parent ≠ _; rw [h2]; exact hpool
  · exact hlease
  · exact Or.inr rfl
  · exact Or.inr rfl
  · rcases hfee with h | h
    · exact Or.inl h
    · exact Or.inr (Or.inr (ne_of_gt h))

theorem toySeed_pub : (Vrf.fromSeed toyCurve (List.replicate 32 5)).pub ≠ Tx.zero32 := by
  have h1 : ∀ n : Nat, toyCurve.compress (n • toyCurve.base) = Vrf.leBytes 32 (n % 2 ^ 128) := by
    intro n
    have hb : toyCurve.base = 1 := rfl
    have hc : ∀ p, toyCurve.compress p = Vrf.leBytes 32 p.val := fun _ => rfl
    rw [hb, hc, nsmul_eq_mul, mul_one, ZMod.val_natCast]
  rw [Vrf.fromSeed]
  simp only [h1]
  decide +kernel

example : ∃ p f, fillDb toyOtsEnc byteKeys toyCurve (7 : UInt8) (fun i => UInt8.ofNat i) (List.replicate 32 5)
      (List.replicate 32 6) 15 38 10 = .ok (p, persist byteKeys p) ∧
    Tx.isWellFormed [] (registrationTx p 2000 10 20 Tx.zero32) ⟨List.replicate 32 1, List.replicate 32 2⟩
      Consensus.v30Base = .ok () ∧
    (registrationTx p 2000 10 20 Tx.zero32).fields = .keyreg f ∧ f.voteFirst = 15 ∧ f.voteLast = 38 := by
  obtain ⟨p, f, h1, h2, _, h3, h4, h5, _⟩ := C93_registers byteKeys_good toyOtsEnc toyCurve (7 : UInt8)
    (fun i => UInt8.ofNat i) (List.replicate 32 5) (List.replicate 32 6) 15 38 10 (by decide) (by decide) (by decide)
    (by decide) (by decide) toySeed_pub 2000 10 20 Tx.zero32 [] ⟨List.replicate 32 1, List.replicate 32 2⟩
    Consensus.v30Base ⟨by decide, by decide, by decide⟩ (Or.inr (by decide)) (by decide) (by decide) (by decide) (by decide) (by decide)
    (by decide) (Or.inr rfl)
  exact ⟨p, f, h1, h2, h3, h4, h5⟩

/-- C93: keys for round 0 alone can be generated, but registering them is refused where the coherence check is on. -/
theorem C93_round_zero_refused {G : Type} [AddCommGroup G] {S : Scheme} {K : Keys S} (hK : GoodKeys K) (E : Enc)
    (C : Vrf.Curve G) (master : S.Sk) (eph : Nat → S.Sk) (seed parent : Bytes) (d : Nat) (hd : 0 < d)
    (fee fv lv : Nat) (lease cc : Bytes) (spec : Tx.SpecialAddresses) (params : Consensus.Params) (hp : ParamsFit params)
    (hcheck : params.enableKeyregCoherencyCheck = true) (hlv : lv + 1 < 2 ^ 64) :
    ∃ p, fillDb E K C master eph seed parent 0 0 d = .ok (p, persist K p) ∧
      Tx.isWellFormed cc (registrationTx p fee fv lv lease) spec params ≠ .ok () := by
  obtain ⟨p, h1, _, _, _, h5, h6, _⟩ := fillDb_ok E K C master eph seed parent 0 0 d (le_refl 0) hd (by decide) hK.correct
  refine ⟨p, h1, ?_⟩
  have hfit : FitsMachine (registrationTx p fee fv lv lease) params := fun _ _ => hlv
  rw [Ne, wellFormed_iff _ _ _ _ hp hfit]
  rintro ⟨hlim, _⟩
  rcases hlim.type.1 hcheck with h | h
  · exact h.2.2.2.2.1 h5
  · have := h.2.2.1
    simp only at this
    omega

/-! ## Cases -/

/-- A case of `C30_available`, `C30_listed` and `C30_add_once`: two participations added, then one deletion after round 5.
Round 9 can still be signed, round 5 cannot; both participations are listed; adding the first again changes nothing. -/
example : ∃ m, runMgr toyOtsEnc byteKeys toyTable Manager.empty
      [.add (toyPart 1), .add (toyPart 2), .delete certDeletion] = .ok m ∧
    ¬ (∃ p ∈ m.keys 5, p.identity = (toyPart 1).identity ∧ CanSign toyOtsEnc p 5) ∧
    (toyPart 1).identity ∈ (m.keys 9).map (·.identity) ∧ (m.addParticipation (toyPart 1)).1 = m := by
  have hpos : ∀ e ∈ twoKeys.partKeys, 0 < e.2.keyDilution := by rw [twoKeys_keys]; simp [toyPart]
  obtain ⟨m, w, h⟩ := certDeletion_ok twoKeys hpos
  have hrun : runMgr toyOtsEnc byteKeys toyTable Manager.empty
      [.add (toyPart 1), .add (toyPart 2), .delete certDeletion] = .ok m := by
    show (twoKeys.deleteOldKeys _ _ _ _ _ _ _ _ >>= fun r => runMgr _ _ _ r.1 []) = _
    rw [h]; rfl
  have hadd : ∀ p, MgrOp.add p ∈ ([.add (toyPart 1), .add (toyPart 2), .delete certDeletion] : List (MgrOp byteScheme)) →
      Certified toyOtsEnc p.voting ∧ 0 < p.keyDilution ∧ p.keyDilution < u64Lim := by
    intro p hp
    simp only [List.mem_cons, MgrOp.add.injEq, reduceCtorEq, List.not_mem_nil, or_false] at hp
    rcases hp with rfl | rfl
    · exact ⟨toyPart_certified 1, by decide, by decide⟩
    · exact ⟨toyPart_certified 2, by decide, by decide⟩
  refine ⟨m, hrun, ?_, ?_, ?_⟩
  · intro hex
    obtain ⟨p0, ds, h1, _, _, _, h2⟩ := (C30_available byteKeys_good emptyInvalid_byte ⟨(0 : UInt8)⟩ toyTable _ m hrun hadd
      (toyPart 1).identity 5 (by decide)).1 hex
    rw [show firstAdd (toyPart 1).identity [.add (toyPart 1), .add (toyPart 2), .delete certDeletion] =
      some (toyPart 1, [certDeletion]) by simp [firstAdd, deletionsOf]] at h1
    injection h1 with h1
    injection h1 with _ h1
    subst h1
    exact absurd (h2 certDeletion (by simp) 6 (by decide +kernel)) (by decide)
  · exact ((C30_listed toyOtsEnc byteKeys toyTable _ m hrun 9).2 _).2
      ⟨⟨toyPart 1, by simp, rfl⟩, by decide, by decide⟩
  · obtain ⟨h1, h2, _⟩ := C30_add_once toyOtsEnc byteKeys toyTable _ m hrun (toyPart 1)
    refine h2 (Bool.eq_false_iff.2 fun ht => h1.1 ht ⟨toyPart 1, by simp, ?_⟩)
    exact ⟨rfl, rfl, rfl, rfl, rfl⟩

/-- A case of `C30_needed_kept`: the next certificate is for round 3, the account signed none; keys from round 4 on are kept. -/
example : ∃ n, nextRound { certHeader.body with compactCerts := some ⟨Tx.zero32, 0, 3⟩ } (fun _ => some 0) 128 [] = .ok n ∧
    n ≤ 6 := by
  have h : nextRound { certHeader.body with compactCerts := some ⟨Tx.zero32, 0, 3⟩ } (fun _ => some 0) 128 [] = .ok 4 := by decide
  exact ⟨4, h, (C30_needed_kept _ _ _ _ 4 h).1⟩

/-- A case of `C92_violated`: deleting after a block made by `newBlock` (the hypothesis holds for any header of such a block;
one is made here from the example chain) crashes for the two participations. -/
example {AD : Type} (env : Block.Env AD) (now : Nat) (prev prev' : Block.BlockHeader) (b : Block.Block AD)
    (h : Block.newBlock env toyTable now prev = .ok (b, prev')) :
    twoKeys.deleteOldKeys toyOtsEnc byteKeys toyTable b.header (fun _ => none) 10 (fun _ _ => (9 : UInt8)) id = .panic :=
  C92_violated env toyOtsEnc byteKeys toyTable twoKeys (by rw [twoKeys_keys]; simp)
    ⟨b.header, fun _ => none, 10, fun _ _ => (9 : UInt8), id, fun l => .refl l⟩ (.inl ⟨now, prev, b, prev', h, rfl⟩)

/-- Parameters with the coherence check. -/
def coherent : Consensus.Params := { Consensus.v30Base with enableKeyregCoherencyCheck := true }

/-- A case of `C93_round_zero_refused`. -/
example : ∃ p, fillDb toyOtsEnc byteKeys toyCurve (7 : UInt8) (fun i => UInt8.ofNat i) (List.replicate 32 5)
      (List.replicate 32 6) 0 0 10 = .ok (p, persist byteKeys p) ∧
    Tx.isWellFormed [] (registrationTx p 2000 10 20 Tx.zero32) ⟨List.replicate 32 1, List.replicate 32 2⟩ coherent
      ≠ .ok () :=
  C93_round_zero_refused byteKeys_good toyOtsEnc toyCurve (7 : UInt8) _ _ _ 10 (by decide) 2000 10 20 _ _ _ coherent
    ⟨by decide, by decide, by decide⟩ rfl (by decide)

end Verif.Props
