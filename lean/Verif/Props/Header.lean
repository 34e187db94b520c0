import Verif.Props.Block
import Verif.Props.Codec
/-!
# C101-C105: header chains, new blocks, genesis blocks, Merkle leaves
-/

namespace Verif.Props
open Verif Verif.Consensus Verif.Block Verif.Tx Verif.HashId Verif.Codec

/-! ## C101: accepted headers extend their parent -/

/-- The rules of a header `h` with parent `q`, independent of the checking code: `digest` is the digest of the parent,
`inc` the largest timestamp step, `gh` whether the protocol knows genesis hashes. -/
structure Extends (digest : Bytes) (inc : Nat) (gh : Bool) (q h : HeaderBody) : Prop where
  round : h.round = q.round + 1
  branch : h.branch = digest
  early : 0 < q.timestamp → q.timestamp ≤ h.timestamp
  late : 0 < q.timestamp → h.timestamp ≤ q.timestamp + inc
  hasId : h.genesisId ≠ []
  sameId : q.genesisId ≠ [] → h.genesisId = q.genesisId
  hasHash : h.genesisHash ≠ List.replicate 32 0 ↔ gh = true
  sameHash : gh = true → q.genesisHash ≠ List.replicate 32 0 → h.genesisHash = q.genesisHash

theorem checkTimestamp_iff (p : Params) (h q : HeaderBody) (hbig : q.timestamp + p.maxTimestampIncrement < u64Lim) :
    checkTimestamp p h q = .ok () ↔
      (0 < q.timestamp → q.timestamp ≤ h.timestamp) ∧ (0 < q.timestamp → h.timestamp ≤ q.timestamp + p.maxTimestampIncrement) := by
  rw [checkTimestamp]
  by_cases h0 : q.timestamp > 0
  · rw [if_pos h0]
    by_cases h1 : h.timestamp < q.timestamp
    · rw [if_pos h1]
      simp only [reduceCtorEq, false_iff, not_and]
      intro h2
      have := h2 h0
      omega
    · rw [if_neg h1, addU64, if_pos hbig, Res.ok_bind]
      by_cases h2 : h.timestamp > q.timestamp + p.maxTimestampIncrement
      · rw [if_pos h2]
        simp only [reduceCtorEq, false_iff, not_and]
        intro _ h3
        have := h3 h0
        omega
      · rw [if_neg h2]
        simp only [true_iff]
        exact ⟨fun _ => by omega, fun _ => by omega⟩
  · rw [if_neg h0]
    simp only [true_iff]
    exact ⟨fun h => absurd h h0, fun h => absurd h h0⟩

theorem checkGenesis_iff (p : Params) (h q : HeaderBody) :
    checkGenesis p h q = .ok () ↔
      h.genesisId ≠ [] ∧ (q.genesisId ≠ [] → h.genesisId = q.genesisId) ∧
      (h.genesisHash ≠ List.replicate 32 0 ↔ p.supportGenesisHash = true) ∧
      (p.supportGenesisHash = true → q.genesisHash ≠ List.replicate 32 0 → h.genesisHash = q.genesisHash) := by
  rw [checkGenesis, show Block.zeroHash = List.replicate 32 0 from rfl]
  generalize List.replicate 32 (0 : UInt8) = z
  by_cases h1 : h.genesisId = []
  · simp [h1]
  · rw [if_neg h1]
    by_cases h2 : q.genesisId ≠ [] ∧ h.genesisId ≠ q.genesisId
    · rw [if_pos h2]
      simp only [reduceCtorEq, false_iff]
      exact fun hh => h2.2 (hh.2.1 h2.1)
    · rw [if_neg h2]
      have h2' : q.genesisId ≠ [] → h.genesisId = q.genesisId := fun hq => by
        by_contra hc; exact h2 ⟨hq, hc⟩
      cases h3 : p.supportGenesisHash with
      | true =>
        rw [if_pos rfl]
        by_cases h4 : h.genesisHash = z
        · simp [h4]
        · rw [if_neg h4]
          by_cases h5 : q.genesisHash ≠ z ∧ q.genesisHash ≠ h.genesisHash
          · rw [if_pos h5]
            simp only [reduceCtorEq, false_iff]
            exact fun hh => h5.2 (hh.2.2.2 trivial h5.1).symm
          · rw [if_neg h5]
            simp only [true_iff]
            refine ⟨h1, h2', ⟨fun _ => trivial, fun _ => h4⟩, fun _ hq => ?_⟩
            by_contra hc
            exact h5 ⟨hq, fun e => hc e.symm⟩
      | false =>
        rw [if_neg (by simp)]
        by_cases h4 : h.genesisHash = z
        · rw [if_neg (by simp [h4])]
          simp [h1, h4]
          exact h2'
        · rw [if_pos h4]
          simp [h4]

/-- C101: a header is accepted on a parent exactly when its protocol is known, it satisfies the rules of `Extends` for
that protocol, and its upgrade state is the result of applying its vote to the parent's. -/
theorem C101_accepted_iff {AD : Type} (env : Env AD) (tbl : Protocols) (self prev : BlockHeader) (p : Params)
    (hp : lookup tbl self.upgradeState.current = some p) (hr : prev.body.round + 1 < u64Lim)
    (hbig : prev.body.timestamp + p.maxTimestampIncrement < u64Lim) :
    (preCheck env tbl self prev).1 = .ok () ↔
      Extends (env.hash (HashId.blockHeader.bytes ++ env.encHeader prev.body)) p.maxTimestampIncrement p.supportGenesisHash
        prev.body self.body ∧
      applyUpgradeVote tbl prev.upgradeState self.body.round self.body.upgradeVote = .ok self.upgradeState := by
  have hdig : headerHash env prev = env.hash (HashId.blockHeader.bytes ++ env.encHeader prev.body) := rfl
  rw [preCheck, hp]
  simp only
  rw [addU64, if_pos hr]
  simp only
  by_cases h1 : prev.body.round + 1 ≠ self.body.round
  · rw [if_pos h1]
    simp only [reduceCtorEq, false_iff]
    exact fun h => h1 h.1.round.symm
  rw [if_neg h1]
  have h1' : prev.body.round + 1 = self.body.round := Classical.not_not.1 h1
  by_cases h2 : self.body.branch ≠ headerHash env prev
  · rw [if_pos h2]
    simp only [reduceCtorEq, false_iff]
    exact fun h => h2 (h.1.branch.trans hdig.symm)
  rw [if_neg h2]
  have h2' := Classical.not_not.1 h2
  rw [h1']
  cases ha : applyUpgradeVote tbl prev.upgradeState self.body.round self.body.upgradeVote with
  | panic => simp
  | err e => obtain ⟨e, s⟩ := e; simp
  | ok s =>
    simp only
    by_cases h3 : s ≠ self.upgradeState
    · rw [if_pos h3]
      simp only [reduceCtorEq, Res.ok.injEq, false_iff]
      exact fun h => h3 h.2
    · rw [if_neg h3]
      have h3' := Classical.not_not.1 h3
      simp only [Res.ok.injEq]
      have hT := checkTimestamp_iff p self.body prev.body hbig
      have hG := checkGenesis_iff p self.body prev.body
      constructor
      · intro h
        obtain ⟨u, ht, hg⟩ := Res.bind_eq_ok.1 h
        have ht := hT.1 ht
        have hg := hG.1 hg
        exact ⟨⟨h1'.symm, h2'.trans hdig, ht.1, ht.2, hg.1, hg.2.1, hg.2.2.1, hg.2.2.2⟩, h3'⟩
      · rintro ⟨h, _⟩
        rw [hT.2 ⟨h.early, h.late⟩, Res.ok_bind]
        exact hG.2 ⟨h.hasId, h.sameId, h.hasHash, h.sameHash⟩

/-- What acceptance gives in all cases, with no condition on the numbers. -/
theorem accepted_facts {AD : Type} (env : Env AD) (tbl : Protocols) (self prev : BlockHeader)
    (h : (preCheck env tbl self prev).1 = .ok ()) :
    self.body.round = prev.body.round + 1 ∧ self.body.branch = headerHash env prev ∧
    applyUpgradeVote tbl prev.upgradeState self.body.round self.body.upgradeVote = .ok self.upgradeState ∧
    self.body.genesisId ≠ [] ∧ (prev.body.genesisId ≠ [] → self.body.genesisId = prev.body.genesisId) := by
  rw [preCheck] at h
  cases hl : lookup tbl self.upgradeState.current with
  | none => rw [hl] at h; simp at h
  | some p =>
    rw [hl] at h
    simp only at h
    split at h
    · rename_i round hround
      obtain ⟨hr, _⟩ := addU64_ok hround
      split at h
      · simp at h
      · rename_i h1
        have h1 := Classical.not_not.1 h1
        split at h
        · simp at h
        · rename_i h2
          have h2 := Classical.not_not.1 h2
          split at h
          · simp at h
          · simp at h
          · rename_i s hs
            simp only at h
            split at h
            · simp at h
            · rename_i h3
              have h3 := Classical.not_not.1 h3
              obtain ⟨u, ht, hg⟩ := Res.bind_eq_ok.1 h
              have hg := (checkGenesis_iff p self.body prev.body).1 hg
              refine ⟨by rw [← h1, hr], h2, ?_, hg.1, hg.2.1⟩
              rw [← h1, hs, h3]
    · simp at h

example {AD : Type} (env : Env AD) : (preCheck env builtin (toyChild env) toyParent).1 = .ok () :=
  (C76_not_repeatable env).1

/-! ## C102: a digest determines the whole chain -/

/-- A chain of headers, newest first: every header is accepted on the one before it; the last one is trusted as is. -/
def IsChain {AD : Type} (env : Env AD) (tbl : Protocols) : List BlockHeader → Prop
  | [] => False
  | [_] => True
  | h :: q :: rest => (preCheck env tbl h q).1 = .ok () ∧ IsChain env tbl (q :: rest)

/-- The string hashed for the digest of a header. -/
def headerString (h : BlockHeader) : Bytes := HashId.blockHeader.bytes ++ Msgpack.enc (headerMP h.body)

/-- C102: in a chain of accepted headers the rounds are consecutive and the network never changes. -/
theorem C102_chain_consistent {AD : Type} (env : Env AD) (tbl : Protocols) (c : List BlockHeader) (g : BlockHeader)
    (hc : IsChain env tbl (c ++ [g])) (i : Nat) (hi : i < c.length) :
    c[i].body.round = g.body.round + (c.length - i) ∧
    (g.body.genesisId ≠ [] → c[i].body.genesisId = g.body.genesisId) := by
  induction c generalizing i with
  | nil => simp at hi
  | cons h c ih =>
    cases c with
    | nil =>
      have hi0 : i = 0 := by simpa using hi
      subst hi0
      obtain ⟨h1, h2, h3, h4, h5⟩ := accepted_facts env tbl h g hc.1
      exact ⟨by simpa using h1, h5⟩
    | cons q rest =>
      obtain ⟨h1, h2, h3, h4, h5⟩ := accepted_facts env tbl h q hc.1
      cases i with
      | zero =>
        obtain ⟨e1, e2⟩ := ih hc.2 0 (by simp)
        simp only [List.getElem_cons_zero, List.length_cons] at e1 e2 ⊢
        refine ⟨by omega, fun hg => ?_⟩
        have := e2 hg
        rw [h5 (by rw [this]; exact hg), this]
      | succ i =>
        obtain ⟨e1, e2⟩ := ih hc.2 i (by simpa using hi)
        simp only [List.getElem_cons_succ, List.length_cons] at e1 e2 ⊢
        simp only [List.length_cons] at hi
        exact ⟨by omega, e2⟩

/-- What acceptance says about genesis hashes. -/
theorem accepted_hash {AD : Type} (env : Env AD) (tbl : Protocols) (self prev : BlockHeader)
    (h : (preCheck env tbl self prev).1 = .ok ()) :
    ∃ p, lookup tbl self.upgradeState.current = some p ∧
      (self.body.genesisHash ≠ List.replicate 32 0 ↔ p.supportGenesisHash = true) ∧
      (p.supportGenesisHash = true → prev.body.genesisHash ≠ List.replicate 32 0 →
        self.body.genesisHash = prev.body.genesisHash) := by
  rw [preCheck] at h
  cases hl : lookup tbl self.upgradeState.current with
  | none => rw [hl] at h; simp at h
  | some p =>
    rw [hl] at h
    simp only at h
    refine ⟨p, rfl, ?_⟩
    split at h
    · split at h
      · simp at h
      · split at h
        · simp at h
        · split at h
          · simp at h
          · simp at h
          · simp only at h
            split at h
            · simp at h
            · obtain ⟨u, ht, hg⟩ := Res.bind_eq_ok.1 h
              exact ((checkGenesis_iff p self.body prev.body).1 hg).2.2
    · simp at h

/-- C102: the genesis hash never changes along a chain of headers under protocols with genesis hashes. -/
theorem C102_genesis_hash {AD : Type} (env : Env AD) (tbl : Protocols) (c : List BlockHeader) (g : BlockHeader)
    (hc : IsChain env tbl (c ++ [g])) (hg : g.body.genesisHash ≠ List.replicate 32 0)
    (hs : ∀ h ∈ c, ∀ p, lookup tbl h.upgradeState.current = some p → p.supportGenesisHash = true) :
    ∀ h ∈ c, h.body.genesisHash = g.body.genesisHash := by
  induction c with
  | nil => intro h hh; cases hh
  | cons x c ih =>
    have hx : ∀ q : BlockHeader, (preCheck env tbl x q).1 = .ok () → q.body.genesisHash = g.body.genesisHash →
        x.body.genesisHash = g.body.genesisHash := by
      intro q hq he
      obtain ⟨p, hp, _, h2⟩ := accepted_hash env tbl x q hq
      rw [h2 (hs x (by simp) p hp) (by rw [he]; exact hg), he]
    cases c with
    | nil =>
      intro h hh
      rw [List.mem_singleton.1 hh]
      exact hx g hc.1 rfl
    | cons q rest =>
      have hr := ih hc.2 (fun h hh => hs h (by simp only [List.mem_cons] at hh ⊢; tauto))
      intro h hh
      rcases List.mem_cons.1 hh with rfl | hh
      · exact hx q hc.1 (hr q (by simp))
      · exact hr h hh

example {AD : Type} (env : Env AD) : ∃ c, c ≠ [] ∧ IsChain env builtin (c ++ [toyParent]) :=
  ⟨[toyChild env], by simp, (C76_not_repeatable env).1, trivial⟩

theorem accepted_time {AD : Type} (env : Env AD) (tbl : Protocols) (self prev : BlockHeader)
    (h : (preCheck env tbl self prev).1 = .ok ()) : prev.body.timestamp ≤ self.body.timestamp := by
  rw [preCheck] at h
  split at h
  · simp at h
  · rename_i p hl
    split at h
    · split at h
      · simp at h
      · split at h
        · simp at h
        · split at h
          · simp at h
          · simp at h
          · simp only at h
            split at h
            · simp at h
            · obtain ⟨u, ht, _⟩ := Res.bind_eq_ok.1 h
              by_cases h0 : prev.body.timestamp > 0
              · rw [checkTimestamp, if_pos h0] at ht
                by_contra hc
                rw [if_pos (by omega)] at ht
                cases ht
              · omega
    · simp at h

/-- C102: along a chain of accepted headers time never goes back. -/
theorem C102_time {AD : Type} (env : Env AD) (tbl : Protocols) (c : List BlockHeader) (hc : IsChain env tbl c)
    (i j : Nat) (hi : i < c.length) (hj : j < c.length) (hij : i ≤ j) : c[j].body.timestamp ≤ c[i].body.timestamp := by
  induction c generalizing i j with
  | nil => cases hc
  | cons h c ih =>
    cases c with
    | nil =>
      have : i = 0 := by simpa using hi
      have : j = 0 := by simpa using hj
      subst i j
      exact Nat.le_refl _
    | cons q rest =>
      have h1 := accepted_time env tbl h q hc.1
      cases j with
      | zero =>
        have : i = 0 := by omega
        subst this
        exact Nat.le_refl _
      | succ j =>
        have hj' : j < (q :: rest).length := by simpa using hj
        cases i with
        | zero =>
          have := ih hc.2 0 j (by simp) hj' (Nat.zero_le _)
          simp only [List.getElem_cons_zero, List.getElem_cons_succ] at this ⊢
          omega
        | succ i => exact ih hc.2 i j (by simpa using hi) hj' (by omega)

/-- C102: two chains of accepted headers that begin at the same trusted header and end in headers with the same digest
are the same chain, upgrade states included, although these are not part of the digest; unless the chains contain two
different headers whose strings collide. -/
theorem C102_digest_determines_chain {AD : Type} (A : AdCodec AD) (hash : Bytes → Bytes) (tbl : Protocols)
    (g : BlockHeader) (a b : List BlockHeader) (ha : IsChain (blockEnv hash A) tbl (a ++ [g]))
    (hb : IsChain (blockEnv hash A) tbl (b ++ [g])) (hta : ∀ h ∈ a ++ [g], HeaderBodyTyped h.body)
    (htb : ∀ h ∈ b ++ [g], HeaderBodyTyped h.body)
    (htip : ((a ++ [g]).head?.map (headerHash (blockEnv hash A))) = ((b ++ [g]).head?.map (headerHash (blockEnv hash A)))) :
    a = b ∨ ∃ x ∈ a ++ [g], ∃ y ∈ b ++ [g], headerString x ≠ headerString y ∧ hash (headerString x) = hash (headerString y) := by
  -- the rounds force equal lengths once the tips agree
  induction a generalizing b with
  | nil =>
    cases b with
    | nil => exact Or.inl rfl
    | cons h b =>
      right
      refine ⟨g, by simp, h, by simp, ?_, ?_⟩
      · intro he
        have hbody : g.body = h.body := headerMP_inj (Msgpack.enc_inj (fits_header (hta g (by simp)))
          (fits_header (htb h (by simp))) (List.append_cancel_left he))
        have := (C102_chain_consistent (blockEnv hash A) tbl (h :: b) g hb 0 (by simp)).1
        simp only [List.getElem_cons_zero, List.length_cons] at this
        rw [← hbody] at this
        omega
      · simp only [List.nil_append, List.head?_cons, Option.map_some, List.cons_append, Option.some.injEq] at htip
        exact htip
  | cons h a ih =>
    cases b with
    | nil =>
      right
      refine ⟨h, by simp, g, by simp, ?_, ?_⟩
      · intro he
        have hbody : h.body = g.body := headerMP_inj (Msgpack.enc_inj (fits_header (hta h (by simp)))
          (fits_header (htb g (by simp))) (List.append_cancel_left he))
        have := (C102_chain_consistent (blockEnv hash A) tbl (h :: a) g ha 0 (by simp)).1
        simp only [List.getElem_cons_zero, List.length_cons] at this
        rw [hbody] at this
        omega
      · simp only [List.nil_append, List.head?_cons, Option.map_some, List.cons_append, Option.some.injEq] at htip
        exact htip
    | cons k b =>
      simp only [List.cons_append, List.head?_cons, Option.map_some, Option.some.injEq] at htip
      by_cases he : headerString h = headerString k
      · have hbody : h.body = k.body := headerMP_inj (Msgpack.enc_inj (fits_header (hta h (by simp)))
          (fits_header (htb k (by simp))) (List.append_cancel_left he))
        -- the parents
        obtain ⟨q, ra, hqa⟩ : ∃ q ra, a ++ [g] = q :: ra := by
          cases h' : a ++ [g] with
          | nil => simp at h'
          | cons q ra => exact ⟨q, ra, rfl⟩
        obtain ⟨s, rb, hsb⟩ : ∃ s rb, b ++ [g] = s :: rb := by
          cases h' : b ++ [g] with
          | nil => simp at h'
          | cons q ra => exact ⟨q, ra, rfl⟩
        have ha' : IsChain (blockEnv hash A) tbl (h :: q :: ra) := by rw [← hqa]; exact ha
        have hb' : IsChain (blockEnv hash A) tbl (k :: s :: rb) := by rw [← hsb]; exact hb
        obtain ⟨a1, a2, a3, _⟩ := accepted_facts _ tbl h q ha'.1
        obtain ⟨b1, b2, b3, _⟩ := accepted_facts _ tbl k s hb'.1
        have htip' : ((a ++ [g]).head?.map (headerHash (blockEnv hash A))) =
            ((b ++ [g]).head?.map (headerHash (blockEnv hash A))) := by
          rw [hqa, hsb]
          simp only [List.head?_cons, Option.map_some, Option.some.injEq]
          rw [← a2, ← b2, hbody]
        rcases ih b (by rw [hqa]; exact ha'.2) (by rw [hsb]; exact hb'.2)
            (fun x hx => hta x (by rw [List.cons_append]; exact List.mem_cons_of_mem _ hx))
            (fun x hx => htb x (by rw [List.cons_append]; exact List.mem_cons_of_mem _ hx)) htip' with rfl | ⟨x, hx, y, hy, hxy⟩
        · left
          have hqs : q = s := by rw [hqa] at hsb; exact (List.cons.inj hsb).1
          have hst : h.upgradeState = k.upgradeState := by
            rw [hqs, hbody, b3] at a3
            exact (Res.ok.inj a3).symm
          obtain ⟨hb1, hs1⟩ := h
          obtain ⟨kb1, ks1⟩ := k
          simp only at hbody hst
          rw [hbody, hst]
        · exact Or.inr ⟨x, by rw [List.cons_append]; exact List.mem_cons_of_mem _ hx, y,
            by rw [List.cons_append]; exact List.mem_cons_of_mem _ hy, hxy⟩
      · exact Or.inr ⟨h, by simp, k, by simp, he, htip⟩

example {AD : Type} (env : Env AD) : IsChain env builtin ([toyChild env] ++ [toyParent]) :=
  ⟨(C76_not_repeatable env).1, trivial⟩

example : HeaderBodyTyped toyParent.body := by
  constructor <;> decide

/-! ## C103: new blocks -/

theorem processUpgrade_vote (tbl : Protocols) (r : Nat) (s s' : UpgradeState) (v : UpgradeVote) (p : Params)
    (hp : lookup tbl s.current = some p) (h : processUpgradeParams tbl r s = .ok (v, s')) :
    (v.approve = true ↔ r + 1 < s.voteBefore ∧ ∃ n, s.next = some n ∧ (∃ d, (n, d) ∈ p.approvedUpgrades)) := by
  have hcont : ∀ n, contains p.approvedUpgrades n = true ↔ ∃ d, (n, d) ∈ p.approvedUpgrades := by
    intro n
    rw [contains, lookup, Option.isSome_map, List.find?_isSome]
    constructor
    · rintro ⟨⟨a, d⟩, hm, ha⟩
      simp only [decide_eq_true_eq] at ha
      exact ⟨d, by rw [← ha]; exact hm⟩
    · rintro ⟨d, hm⟩
      exact ⟨(n, d), hm, by simp⟩
  rw [processUpgradeParams, hp, Res.ofOption_some, Res.ok_bind] at h
  obtain ⟨r', h1, h⟩ := Res.bind_eq_ok.1 h
  obtain ⟨rfl, hlt⟩ := addU64_ok h1
  obtain ⟨w, h2, h⟩ := Res.bind_eq_ok.1 h
  obtain ⟨t, h3, h⟩ := Res.bind_eq_ok.1 h
  simp only [Res.ok.injEq, Prod.mk.injEq] at h
  obtain ⟨rfl, rfl⟩ := h
  by_cases hv : r + 1 < s.voteBefore
  · rw [if_pos hv] at h2
    obtain ⟨n, hn, h2⟩ := Res.bind_eq_ok.1 h2
    simp only [Res.ok.injEq] at h2
    subst h2
    have hn' : s.next = some n := by
      cases hx : s.next with
      | none => rw [hx] at hn; simp [Res.ofOption] at hn
      | some m => rw [hx, Res.ofOption_some, Res.ok.injEq] at hn; rw [hn]
    simp only
    rw [hcont n]
    constructor
    · exact fun hd => ⟨hv, n, hn', hd⟩
    · rintro ⟨_, m, hm, hd⟩
      rw [hn', Option.some.injEq] at hm
      rw [hm]; exact hd
  · rw [if_neg hv] at h2
    simp only [Res.ok.injEq] at h2
    subst h2
    have hfalse : (initialVote p s).approve = false := by
      by_contra hc
      have hc : (initialVote p s).approve = true := by simpa using hc
      rw [applyUpgradeVote, hp, Res.ofOption_some, Res.ok_bind] at h3
      obtain ⟨s1, g1, h3⟩ := Res.bind_eq_ok.1 h3
      obtain ⟨s2, g2, h3⟩ := Res.bind_eq_ok.1 h3
      have hnone : s.next = none := by
        cases hx : s.next with
        | none => rfl
        | some m =>
          rw [initialVote, hx] at hc
          simp [UpgradeVote.default] at hc
      have hs1 : s1 = s := by
        rw [applyProposal, hnone] at g1
        split at g1
        · simp at g1
        · split at g1
          · simp at g1
          · simp only [Res.ok.injEq] at g1; exact g1.symm
      subst hs1
      rw [applyApproval, if_pos hc] at g2
      split at g2
      · simp at g2
      · rw [if_pos (by omega)] at g2
        simp at g2
    rw [hfalse]
    simp only [Bool.false_eq_true, false_iff]
    exact fun h => hv h.1

/-- C103: a block assembled on a parent carries on the parent's network and special addresses, is empty and commits to
that, leaves what is computed later at its defaults, and approves a pending upgrade exactly when the deadline has not
passed and the parent's protocol lists the upgrade; its upgrade state follows from the vote it records. -/
theorem C103_new_block {AD : Type} (env : Env AD) (tbl : Protocols) (now : Nat) (prev prev' : BlockHeader)
    (b : Block.Block AD) (p : Params) (hp : lookup tbl prev.upgradeState.current = some p)
    (h : newBlock env tbl now prev = .ok (b, prev')) :
    b.payset = [] ∧ b.header.body.round = prev.body.round + 1 ∧
    b.header.body.branch = env.hash (HashId.blockHeader.bytes ++ env.encHeader prev.body) ∧
    b.header.body.genesisId = prev.body.genesisId ∧ b.header.body.genesisHash = prev.body.genesisHash ∧
    b.header.body.rewards = ⟨prev.body.rewards.feeSink, prev.body.rewards.rewardsPool, 0, 0, 0, 0⟩ ∧
    b.header.body.seed = List.replicate 32 0 ∧ b.header.body.txCounter = 0 ∧ b.header.body.compactCerts = none ∧
    contentsMatchHeader env tbl b = .ok true ∧
    applyUpgradeVote tbl prev.upgradeState (prev.body.round + 1) b.header.body.upgradeVote = .ok b.header.upgradeState ∧
    (b.header.body.upgradeVote.approve = true ↔ prev.body.round + 1 < prev.upgradeState.voteBefore ∧
      ∃ n, prev.upgradeState.next = some n ∧ ∃ d, (n, d) ∈ p.approvedUpgrades) := by
  obtain ⟨vote, params, hv, hl, hts, hr, hprev', hpay, hround, hbranch, hid, hgh, hvote, _, _, hroot⟩ :=
    newBlock_ok env tbl now prev prev' b h
  rw [newBlock] at h
  obtain ⟨⟨v, state⟩, h1, h⟩ := Res.bind_eq_ok.1 h
  simp only at h
  obtain ⟨_, _, h⟩ := Res.bind_eq_ok.1 h
  obtain ⟨_, _, h⟩ := Res.bind_eq_ok.1 h
  obtain ⟨_, _, h⟩ := Res.bind_eq_ok.1 h
  obtain ⟨_, _, h⟩ := Res.bind_eq_ok.1 h
  simp only [Res.ok.injEq, Prod.mk.injEq] at h
  have h1' : processUpgradeParams tbl prev.body.round prev.upgradeState = .ok (v, state) := by
    split at h1
    · rename_i x hx
      simp only [Res.ok.injEq] at h1
      rw [hx, h1]
    · simp at h1
  have hvv : b.header.body.upgradeVote = v := by rw [← h.1]
  refine ⟨hpay, hround, hbranch, hid, hgh, ?_, ?_, ?_, ?_, ?_, by rw [hvote]; exact hv, ?_⟩
  · rw [← h.1]; rfl
  · rw [← h.1]; rfl
  · rw [← h.1]
  · rw [← h.1]
  · rw [contentsMatchHeader, hroot]; simp
  · rw [hvv]
    exact processUpgrade_vote tbl _ _ _ _ p hp h1'

/-- A parent under protocol 30 that votes on an upgrade to the future protocol. -/
def toyVoting : BlockHeader := { toyParent with upgradeState := ⟨.v30, some .future, 4, 100, 200⟩ }

/-- The built-in table with that upgrade approved. -/
def votingTable : Protocols := [(.v30, { v30Base with approvedUpgrades := [(.future, 0)] })]

example : (processUpgradeParams votingTable 10 toyVoting.upgradeState) =
    .ok (⟨.v30, 0, true⟩, ⟨.v30, some .future, 5, 100, 200⟩) := by decide +kernel

example {AD : Type} (env : Env AD) : ∃ b, newBlock env builtin 7 ⟨toyParent.body, noProposal .v30⟩ =
    .ok (b, ⟨toyParent.body, noProposal .v30⟩) := by
  obtain ⟨b, h, _⟩ := C34_newest_returns env 7 ⟨toyParent.body, noProposal .v30⟩ rfl (by decide) (by decide)
  exact ⟨b, h⟩

/-! ## C104: the genesis block -/

/-- C104: the genesis block is block 0 of the configured network: it has no parent, the given id, timestamp and special
addresses, its seed is the genesis hash, which the header carries exactly where the protocol supports it, it runs the
configured protocol with no upgrade pending, it casts no vote, counts no transactions, and it is empty. -/
theorem C104_genesis_block {AD : Type} (env : Env AD) (tbl : Protocols) (v : Version) (p : Params) (hp : lookup tbl v = some p)
    (g : GenesisBalances) (id gh : Bytes) (b : Block.Block AD) (h : createBlock env tbl v g id gh = .ok b) :
    b.payset = [] ∧ b.header.body.round = 0 ∧ b.header.body.branch = List.replicate 32 0 ∧ b.header.body.seed = gh ∧
    b.header.body.timestamp = g.timestamp ∧ b.header.body.genesisId = id ∧
    (p.supportGenesisHash = true → b.header.body.genesisHash = gh) ∧
    (p.supportGenesisHash = false → b.header.body.genesisHash = List.replicate 32 0) ∧
    b.header.body.rewards.feeSink = g.feeSink ∧ b.header.body.rewards.rewardsPool = g.rewardsPool ∧
    b.header.upgradeState = ⟨v, none, 0, 0, 0⟩ ∧
    b.header.body.txRoot = env.hash (HashId.paysetFlat.bytes ++ env.encPayset []) ∧
    b.header.body.upgradeVote.approve = false ∧ b.header.body.upgradeVote.delay = 0 ∧
    b.header.body.txCounter = 0 ∧ b.header.body.compactCerts = none := by
  rw [createBlock, hp, Res.ofOption_some, Res.ok_bind] at h
  obtain ⟨rw', h1, h⟩ := Res.bind_eq_ok.1 h
  simp only [Res.ok.injEq] at h
  subst h
  rw [genesisRewards] at h1
  obtain ⟨pool, _, h1⟩ := Res.bind_eq_ok.1 h1
  obtain ⟨rate, _, h1⟩ := Res.bind_eq_ok.1 h1
  simp only [Res.ok.injEq] at h1
  subst h1
  refine ⟨rfl, rfl, rfl, rfl, rfl, rfl, ?_, ?_, rfl, rfl, rfl, rfl, rfl, rfl, rfl, rfl⟩
  · intro hs; simp [hs]
  · intro hs; simp [hs, Block.zeroHash]

/-- C104, contents: the genesis block matches its own header under the flat commitment; under the Merkle commitment it
does not, unless the hash of the empty payset is the all-zero root: the genesis root is always the flat one. -/
theorem C104_genesis_contents_partial {AD : Type} (env : Env AD) (tbl : Protocols) (v : Version) (p : Params)
    (hp : lookup tbl v = some p) (g : GenesisBalances) (id gh : Bytes) (b : Block.Block AD)
    (h : createBlock env tbl v g id gh = .ok b) :
    (p.paysetCommit = .flat → contentsMatchHeader env tbl b = .ok true) ∧
    (p.paysetCommit = .merkle → contentsMatchHeader env tbl b =
      .ok (decide (env.hash (HashId.paysetFlat.bytes ++ env.encPayset []) = List.replicate 32 0))) ∧
    (p.paysetCommit = .unsupported → contentsMatchHeader env tbl b = .panic) := by
  obtain ⟨h1, _, _, _, _, _, _, _, _, _, h2, h3, _⟩ := C104_genesis_block env tbl v p hp g id gh b h
  have hl : lookup tbl b.header.upgradeState.current = some p := by rw [h2]; exact hp
  refine ⟨fun hc => ?_, fun hc => ?_, fun hc => ?_⟩
  · rw [(C77_answers_partial env tbl b p hl [] (by rw [h1]; rfl)).1 hc, h1, h3]
    simp
  · obtain ⟨r, hr, e⟩ := (C77_answers_partial env tbl b p hl [] (by rw [h1]; rfl)).2 hc
    rw [e, h3]
    rw [h1, show specLeaves env [] [] = [] from rfl, (C07_root_spec env.hash []).1 rfl, Res.ok.injEq] at hr
    rw [hr]
  · rw [contentsMatchHeader, paysetCommit, hl, Res.ofOption_some, Res.ok_bind, hc]

/-- C104 is violated for the newest protocol: the genesis block made for it fails the check of its own contents, for
every hash that does not map the empty payset to zero. -/
theorem C104_newest_genesis_mismatch {AD : Type} (env : Env AD) (g : GenesisBalances) (id gh : Bytes) (b : Block.Block AD)
    (h : createBlock env builtin .v30 g id gh = .ok b)
    (hz : env.hash (HashId.paysetFlat.bytes ++ env.encPayset []) ≠ List.replicate 32 0) :
    contentsMatchHeader env builtin b = .ok false := by
  obtain ⟨p, hp, hc⟩ : ∃ p, lookup builtin .v30 = some p ∧ p.paysetCommit = .merkle := by
    have h0 : (lookup builtin .v30).map (·.paysetCommit) = some .merkle := by decide +kernel
    cases hl : lookup builtin .v30 with
    | none => rw [hl] at h0; simp at h0
    | some p => rw [hl] at h0; exact ⟨p, rfl, by simpa using h0⟩
  rw [(C104_genesis_contents_partial env builtin .v30 p hp g id gh b h).2.1 hc, decide_eq_false hz]

/-- A genesis configuration with a funded rewards pool. -/
def toyGenesis : GenesisBalances :=
  ⟨[(List.replicate 32 2, ⟨.notParticipating, 10 ^ 12, 0, 0, 0, 0, 0, 0, ⟨0, 0⟩, 0⟩)], List.replicate 32 1, List.replicate 32 2, 5⟩

example {AD : Type} (env : Env AD) : ∃ b, createBlock env builtin .v30 toyGenesis [103] (List.replicate 32 9) = .ok b := by
  obtain ⟨p, hp, hi⟩ : ∃ p, lookup builtin .v30 = some p ∧ p.rewardsRateRefreshInterval = 500000 := by
    have h0 : (lookup builtin .v30).map (·.rewardsRateRefreshInterval) = some 500000 := by decide +kernel
    cases hl : lookup builtin .v30 with
    | none => rw [hl] at h0; simp at h0
    | some p => rw [hl] at h0; exact ⟨p, rfl, by simpa using h0⟩
  rw [createBlock, hp]
  simp only [Res.ofOption_some, Res.ok_bind, genesisRewards, toyGenesis, List.find?_cons, decide_true, Option.map_some, divU,
    hi]
  exact ⟨_, rfl⟩

/-! ## C105: the Merkle leaves of a block -/

/-- C105: the array form of a payset has one leaf per stored transaction, in order: the id of the decoded transaction and
the hash of the stored form, exactly the leaves that the payset commitment uses; if an entry does not decode, the array
reports the error of the first such entry. -/
theorem C105_leaves {AD : Type} (env : Env AD) (tbl : Protocols) (h : BlockHeader) (l : List (Stib AD)) :
    (∀ ds, decodePaysetFlat tbl h l = .ok ds → txMerkleArray env tbl h l = .ok (specLeaves env ds l) ∧
      merkleLeaves env tbl h l = .ok (specLeaves env ds l) ∧ (specLeaves env ds l).length = l.length) ∧
    (∀ i (hi : i < l.length) e, (∃ ds, decodePaysetFlat tbl h (l.take i) = .ok ds) →
      decodeSignedTx tbl h l[i] = .err e → txMerkleArray env tbl h l = .err e) := by
  constructor
  · induction l with
    | nil =>
      intro ds hd
      simp only [decodePaysetFlat, Res.ok.injEq] at hd
      subst hd
      exact ⟨rfl, rfl, rfl⟩
    | cons x l ih =>
      intro ds hd
      rw [decodePaysetFlat] at hd
      obtain ⟨a, h1, hd⟩ := Res.bind_eq_ok.1 hd
      obtain ⟨as, h2, hd⟩ := Res.bind_eq_ok.1 hd
      simp only [Res.ok.injEq] at hd
      subst hd
      obtain ⟨e1, e2, e3⟩ := ih as h2
      refine ⟨?_, ?_, ?_⟩
      · rw [txMerkleArray, h1, Res.ok_bind, e1]
        rfl
      · rw [merkleLeaves, h1]
        simp only [Res.ok_bind]
        rw [e2]
        rfl
      · rw [List.length_cons, ← e3]
        rfl
  · induction l with
    | nil => intro i hi; simp at hi
    | cons x l ih =>
      intro i hi e hd he
      cases i with
      | zero =>
        rw [txMerkleArray]
        simp only [List.getElem_cons_zero] at he
        rw [he]
        rfl
      | succ i =>
        obtain ⟨ds, hd⟩ := hd
        rw [List.take_succ_cons, decodePaysetFlat] at hd
        obtain ⟨a, h1, hd⟩ := Res.bind_eq_ok.1 hd
        obtain ⟨as, h2, _⟩ := Res.bind_eq_ok.1 hd
        rw [txMerkleArray, h1, Res.ok_bind, ih i (by simpa using hi) e ⟨as, h2⟩ (by simpa using he)]
        rfl

example (env : Env Unit) :
    ∃ l, txMerkleArray env builtin toyParent [toyStored [] (List.replicate 32 0) true false] = .ok l ∧ l.length = 1 := by
  have hd : decodePaysetFlat builtin toyParent [toyStored [] (List.replicate 32 0) true false] =
    .ok [⟨(toyStored [103] (List.replicate 32 1) false false).tx.tx, ()⟩] := by decide +kernel
  obtain ⟨h1, _, h2⟩ := (C105_leaves env builtin toyParent _).1 _ hd
  exact ⟨_, h1, h2⟩

/-- A case of `C102_chain_consistent` and `C102_time`. -/
example {AD : Type} (env : Env AD) : (toyChild env).body.round = toyParent.body.round + 1 ∧
    toyParent.body.timestamp ≤ (toyChild env).body.timestamp := by
  have hc : IsChain env builtin ([toyChild env] ++ [toyParent]) := ⟨(C76_not_repeatable env).1, trivial⟩
  exact ⟨(C102_chain_consistent env builtin [toyChild env] toyParent hc 0 (by simp)).1,
    C102_time env builtin _ hc 0 1 (by simp) (by simp) (by decide)⟩

/-- A case of `C104_genesis_block` and `C104_genesis_contents_partial`: the block for `toyGenesis`. -/
example {AD : Type} (env : Env AD) (b : Block.Block AD)
    (h : createBlock env builtin .v30 toyGenesis [103] (List.replicate 32 9) = .ok b) :
    b.payset = [] ∧ b.header.body.timestamp = 5 ∧ ∃ r, contentsMatchHeader env builtin b = .ok r := by
  obtain ⟨p, hp, hi⟩ : ∃ p, lookup builtin .v30 = some p ∧ p.paysetCommit = .merkle := by
    have h0 : (lookup builtin .v30).map (·.paysetCommit) = some .merkle := by decide +kernel
    cases hl : lookup builtin .v30 with
    | none => rw [hl] at h0; cases h0
    | some p => rw [hl] at h0; exact ⟨p, rfl, Option.some.inj h0⟩
  have h1 := C104_genesis_block env builtin .v30 p hp _ _ _ b h
  exact ⟨h1.1, h1.2.2.2.2.1, _, (C104_genesis_contents_partial env builtin .v30 p hp _ _ _ b h).2.1 hi⟩

end Verif.Props
