import Verif.Model.Committee
import Verif.Lemmas.Binomial
import Verif.Lemmas.Codec
import Verif.Lemmas.CodecFits
import Verif.Props.HashId
import Verif.Props.Vrf
import Verif.Props.Balance
import Mathlib.Algebra.Order.Floor.Semiring
import Mathlib.Data.Rat.Floor
import Mathlib.Tactic.FieldSimp
/-!
# Properties of committee selection (C55 - C58, C88, C89)
-/

namespace Verif.Props
open Verif Verif.Committee Verif.Consensus Verif.HashId Verif.Balance Verif.Msgpack Verif.Codec Verif.Vrf

/-! ## C57: the number of seats -/

/-- The specification of the number of seats among `n` for a draw `r`: the least number whose cumulative probability
reaches the draw, and `n` if none below `n` does. -/
structure IsSeats {F : Type} (Fl : Floats F) (n : Nat) (p r : F) (w : Nat) : Prop where
  bound : w ≤ n
  below : ∀ i, i < w → Fl.ge (Fl.cdf p n i) r = false
  reached : w < n → Fl.ge (Fl.cdf p n w) r = true

theorem cdfWalk_spec {F : Type} (Fl : Floats F) (n : Nat) (p r : F) (w : Nat) :
    cdfWalk Fl n p r = .ok w ↔ Fl.valid p n = true ∧ IsSeats Fl n p r w := by
  have uniq : ∀ a b, IsSeats Fl n p r a → IsSeats Fl n p r b → a ≤ b := by
    intro a b ha hb
    by_contra hc
    have h1 := hb.reached (by have := ha.bound; omega)
    rw [ha.below b (by omega)] at h1
    cases h1
  have ex : IsSeats Fl n p r (((List.range n).find? (fun i => Fl.ge (Fl.cdf p n i) r)).getD n) := by
    cases h : (List.range n).find? (fun i => Fl.ge (Fl.cdf p n i) r) with
    | none =>
      rw [List.find?_eq_none] at h
      refine ⟨Nat.le_refl _, fun i hi => ?_, fun hi => absurd hi (Nat.lt_irrefl _)⟩
      have := h i (List.mem_range.2 hi)
      simpa using this
    | some w =>
      have h1 := List.mem_of_find?_eq_some h
      have h2 := List.find?_some h
      refine ⟨Nat.le_of_lt (List.mem_range.1 h1), fun i hi => ?_, fun _ => h2⟩
      have hi : i < w := hi
      obtain ⟨_, as, bs, hab, hno⟩ := List.find?_eq_some_iff_append.1 h
      have hlen : as.length = w := by
        have h3 : (List.range n)[as.length]? = some w := by rw [hab]; simp
        obtain ⟨h4, h5⟩ := List.getElem?_eq_some_iff.1 h3
        simpa using h5
      have hi' : i ∈ as := by
        have h3 : (List.range n)[i]? = some i := by
          rw [List.getElem?_range]
          have := List.mem_range.1 h1
          exact Nat.lt_trans hi this
        rw [hab, List.getElem?_append_left (by omega)] at h3
        exact List.mem_of_getElem? h3
      simpa using hno i hi'
  rw [cdfWalk]
  constructor
  · intro h
    split at h
    · rename_i hv
      simp only [Res.ok.injEq] at h
      subst h
      exact ⟨hv, ex⟩
    · simp at h
  · rintro ⟨hv, hw⟩
    rw [if_pos hv, Nat.le_antisymm (uniq _ _ ex hw) (uniq _ _ hw ex)]

/-- C57: the number of seats is at most the stake and is the least number whose cumulative probability reaches the draw
(for any floating point arithmetic). -/
theorem C57_least_count {F : Type} (Fl : Floats F) (money total : Nat) (expected : F) (out : Bytes) (w : Nat)
    (h : select Fl money total expected out = .ok w) :
    w ≤ money ∧
    (∀ i, i < w → Fl.ge (Fl.cdf (Fl.div expected (Fl.ofU64 total)) money i) (Fl.ratio (ofBE out)) = false) ∧
    (w < money → Fl.ge (Fl.cdf (Fl.div expected (Fl.ofU64 total)) money w) (Fl.ratio (ofBE out)) = true) := by
  obtain ⟨_, h⟩ := (cdfWalk_spec Fl _ _ _ _).1 h
  exact ⟨h.bound, h.below, h.reached⟩

/-- C57: a larger draw never gives fewer seats. (The hypothesis is that the comparison respects the order of the two draws:
what reaches the larger one reaches the smaller one.) -/
theorem C57_monotone {F : Type} (Fl : Floats F) (money total : Nat) (expected : F) (out out' : Bytes) (w w' : Nat)
    (hle : ∀ x, Fl.ge x (Fl.ratio (ofBE out')) = true → Fl.ge x (Fl.ratio (ofBE out)) = true)
    (h : select Fl money total expected out = .ok w) (h' : select Fl money total expected out' = .ok w') : w ≤ w' := by
  obtain ⟨_, a⟩ := (cdfWalk_spec Fl _ _ _ _).1 h
  obtain ⟨_, b⟩ := (cdfWalk_spec Fl _ _ _ _).1 h'
  by_contra hc
  have h1 := hle _ (b.reached (by have := a.bound; omega))
  rw [a.below w' (by omega)] at h1
  cases h1

/-! ## Exact arithmetic -/

/-- The sortition in exact arithmetic: the draw is a fraction of `2^256 - 1`. -/
def ideal : Floats ℚ where
  ofU64 n := n
  div a b := a / b
  ratio t := t / ((2 ^ 256 - 1 : Nat) : ℚ)
  valid p _ := decide (0 ≤ p ∧ p ≤ 1)
  cdf := Binomial.cdf
  ge a b := decide (b ≤ a)

theorem prob_bounds {size total : Nat} (h : size ≤ total) : (0 : ℚ) ≤ (size : ℚ) / total ∧ (size : ℚ) / total ≤ 1 := by
  constructor
  · exact div_nonneg (Nat.cast_nonneg _) (Nat.cast_nonneg _)
  · exact div_le_one_of_le₀ (Nat.cast_le.2 h) (Nat.cast_nonneg _)

theorem beVal_append (a : Bytes) (b : UInt8) : ofBE (a ++ [b]) = ofBE a * 256 + b.toNat := by
  simp [ofBE, List.foldl_append]

theorem beVal_lt (l : Bytes) : ofBE l < 256 ^ l.length := by
  induction l using List.reverseRecOn with
  | nil => simp [ofBE]
  | append_singleton l b ih =>
    rw [beVal_append, List.length_append, List.length_singleton, Nat.pow_succ]
    have := b.toNat_lt
    omega

theorem draw_le_one {out : Bytes} (h : out.length = 32) : (ofBE out : ℚ) / ((2 ^ 256 - 1 : Nat) : ℚ) ≤ 1 := by
  refine div_le_one_of_le₀ (Nat.cast_le.2 ?_) (Nat.cast_nonneg _)
  have := beVal_lt out
  rw [h, show (256 : Nat) ^ 32 = 2 ^ 256 by norm_num] at this
  exact Nat.le_sub_one_of_lt this

theorem select_ideal {money total size : Nat} {out : Bytes} {w : Nat}
    (h : select ideal money total (size : ℚ) out = .ok w) (hst : size ≤ total) (ho : out.length = 32) (j : Nat) :
    w ≤ j ↔ (ofBE out : ℚ) / ((2 ^ 256 - 1 : Nat) : ℚ) ≤ Binomial.cdf ((size : ℚ) / total) money j := by
  obtain ⟨_, hs⟩ := (cdfWalk_spec ideal _ _ _ _).1 h
  have hp := prob_bounds hst
  have hge : ∀ i, ideal.ge (ideal.cdf (ideal.div (size : ℚ) (ideal.ofU64 total)) money i) (ideal.ratio (ofBE out)) =
      decide ((ofBE out : ℚ) / ((2 ^ 256 - 1 : Nat) : ℚ) ≤ Binomial.cdf ((size : ℚ) / total) money i) := fun _ => rfl
  constructor
  · intro hj
    refine le_trans ?_ (Binomial.cdf_mono hp.1 hp.2 money hj)
    by_cases hw : w < money
    · have := hs.reached hw
      rw [hge] at this
      simpa using this
    · have : w = money := by have := hs.bound; omega
      rw [this, Binomial.cdf_full]
      exact draw_le_one ho
  · intro hj
    by_contra hc
    have := hs.below j (by omega)
    rw [hge] at this
    simp only [decide_eq_false_iff_not] at this
    exact this hj

/-- C57 in exact arithmetic: the seats are the least number `i` whose cumulative binomial probability is at least the
draw (as a fraction of the largest digest), and there always is one; so the number is monotone in the digest. -/
theorem C57_exact (money total size : Nat) (out : Bytes) (hst : size ≤ total) (ho : out.length = 32) :
    ∃ w, select ideal money total (size : ℚ) out = .ok w ∧ w ≤ money ∧
      ∀ j, w ≤ j ↔ (ofBE out : ℚ) / ((2 ^ 256 - 1 : Nat) : ℚ) ≤
        ∑ k ∈ Finset.range (j + 1), (money.choose k : ℚ) * ((size : ℚ) / total) ^ k * (1 - (size : ℚ) / total) ^ (money - k) := by
  have hp := prob_bounds hst
  have hv : ideal.valid (ideal.div (size : ℚ) (ideal.ofU64 total)) money = true := by
    exact decide_eq_true hp
  obtain ⟨w, hw⟩ : ∃ w, select ideal money total (size : ℚ) out = .ok w := by
    rw [select, cdfWalk, if_pos hv]; exact ⟨_, rfl⟩
  exact ⟨w, hw, (C57_least_count _ _ _ _ _ _ hw).1, select_ideal hw hst ho⟩

/-- With one microalgo among ten, an expected size of one and the largest draw, one seat. -/
example : select ideal 1 10 (1 : ℚ) (List.replicate 32 255) = .ok 1 := by
  obtain ⟨w, h1, h2, h3⟩ := C57_exact 1 10 1 (List.replicate 32 255) (by decide) (by simp)
  have hc : ¬ w ≤ 0 := by
    rw [h3]
    have : (ofBE (List.replicate 32 255) : ℚ) / ((2 ^ 256 - 1 : Nat) : ℚ) = 1 := by
      rw [show ofBE (List.replicate 32 255) = 2 ^ 256 - 1 by decide +kernel]
      exact div_self (by norm_num)
    rw [this]
    simp
  have : w = 1 := by omega
  subst this
  exact_mod_cast h1

/-! ## C153: panics -/

/-- **C153** is violated, for any floating point arithmetic: sortition panics exactly when the library refuses the quotient
of the expected size and the total stake as a probability. -/
theorem C153_panics_iff {F : Type} (Fl : Floats F) (money total : Nat) (expected : F) (out : Bytes) :
    select Fl money total expected out = .panic ↔ Fl.valid (Fl.div expected (Fl.ofU64 total)) money = false := by
  rw [select, cdfWalk]
  cases Fl.valid (Fl.div expected (Fl.ofU64 total)) money <;> simp

/-- **C153**, violated in exact arithmetic: every expected size above the total stake crashes, whatever the stake and the
draw. -/
theorem C153_crashes (money total size : Nat) (out : Bytes) (ht : 0 < total) (h : total < size) :
    select ideal money total (size : ℚ) out = .panic := by
  rw [C153_panics_iff]
  refine decide_eq_false (fun hv => ?_)
  have h1 : (size : ℚ) / (total : ℚ) ≤ 1 := hv.2
  rw [div_le_one (by exact_mod_cast ht)] at h1
  have : size ≤ total := by exact_mod_cast h1
  omega

example (money : Nat) (out : Bytes) : select ideal money 10 (20 : ℚ) out = .panic := by
  have := C153_crashes money 10 20 out (by decide) (by decide)
  exact_mod_cast this

/-- **C153**, what holds: with an expected size of at most the total stake, sortition returns a number for every draw; and it
never returns an error. -/
theorem C153_returns_partial (money total size : Nat) (out : Bytes) :
    (size ≤ total → ∃ w, select ideal money total (size : ℚ) out = .ok w) ∧
    ∀ e, select ideal money total (size : ℚ) out ≠ .err e := by
  constructor
  · intro h
    have hv : ideal.valid (ideal.div (size : ℚ) (ideal.ofU64 total)) money = true := decide_eq_true (prob_bounds h)
    rw [select, cdfWalk, if_pos hv]
    exact ⟨_, rfl⟩
  · intro e
    rw [select, cdfWalk]
    split <;> simp

/-! ## C88: fairness -/

/-- C88: with the same draw, more stake never means fewer seats. -/
theorem C88_more_stake (m m' total size : Nat) (out : Bytes) (hm : m ≤ m') (hst : size ≤ total) (ho : out.length = 32)
    (w w' : Nat) (h : select ideal m total (size : ℚ) out = .ok w) (h' : select ideal m' total (size : ℚ) out = .ok w') :
    w ≤ w' := by
  rw [select_ideal h hst ho]
  have hp := prob_bounds hst
  exact le_trans ((select_ideal h' hst ho w').1 (Nat.le_refl _)) (Binomial.cdf_trials hp.1 hp.2 hm w')

/-- C88: with the same draw, a larger committee never means fewer seats. -/
theorem C88_larger_committee (m total size size' : Nat) (out : Bytes) (hs : size ≤ size') (hst : size' ≤ total)
    (ho : out.length = 32) (w w' : Nat) (h : select ideal m total (size : ℚ) out = .ok w)
    (h' : select ideal m total (size' : ℚ) out = .ok w') : w ≤ w' := by
  rw [select_ideal h (by omega) ho]
  have hp := prob_bounds (Nat.le_trans hs hst)
  have hp' := prob_bounds hst
  have hle : (size : ℚ) / total ≤ (size' : ℚ) / total := div_le_div_of_nonneg_right (Nat.cast_le.2 hs) (Nat.cast_nonneg _)
  exact le_trans ((select_ideal h' hst ho w').1 (Nat.le_refl _)) (Binomial.cdf_prob hp.1 hle hp'.2 m w')

/-- C88: with the same draw, more money in the hands of others never means more seats. -/
theorem C88_larger_total (m total total' size : Nat) (out : Bytes) (ht : total ≤ total') (hst : size ≤ total) (hpos : 0 < total)
    (ho : out.length = 32) (w w' : Nat) (h : select ideal m total (size : ℚ) out = .ok w)
    (h' : select ideal m total' (size : ℚ) out = .ok w') : w' ≤ w := by
  rw [select_ideal h' (by omega) ho]
  have hp := prob_bounds hst
  have hp' := prob_bounds (Nat.le_trans hst ht)
  have hle : (size : ℚ) / total' ≤ (size : ℚ) / total :=
    div_le_div_of_nonneg_left (Nat.cast_nonneg _) (Nat.cast_pos.2 hpos) (Nat.cast_le.2 ht)
  exact le_trans ((select_ideal h hst ho w).1 (Nat.le_refl _)) (Binomial.cdf_prob hp'.1 hle hp.2 m w)

/-- C88: among all `2^256` digests, the share that gives more than `j` seats is the binomial tail probability, rounded up
to a multiple of `1 / (2^256 - 1)`: exactly `M - ⌊cdf j · M⌋` of them, where `M = 2^256 - 1`. Here `seats` gives the number
of seats for the digest with number `t`. -/
theorem C88_share_of_draws (m total size : Nat) (hst : size ≤ total) (seats : Nat → Nat)
    (hseats : ∀ t, t < 2 ^ 256 → ∃ out : Bytes, out.length = 32 ∧ ofBE out = t ∧
      select ideal m total (size : ℚ) out = .ok (seats t)) (j : Nat) :
    ((Finset.range (2 ^ 256)).filter (fun t => j < seats t)).card =
      (2 ^ 256 - 1) - ⌊Binomial.cdf ((size : ℚ) / total) m j * ((2 ^ 256 - 1 : Nat) : ℚ)⌋₊ := by
  have hp := prob_bounds hst
  generalize hM : (2 ^ 256 - 1 : Nat) = M
  have hM1 : 2 ^ 256 = M + 1 := by rw [← hM]; norm_num
  have hMpos : (0 : ℚ) < M := by rw [← hM]; norm_num
  rw [hM1] at hseats ⊢
  have hc1 := Binomial.cdf_le_one hp.1 hp.2 m j
  have hc0 := Binomial.cdf_nonneg hp.1 hp.2 m j
  generalize hc : Binomial.cdf ((size : ℚ) / total) m j = c at *
  have hfl : ⌊c * (M : ℚ)⌋₊ ≤ M := by
    have : c * (M : ℚ) ≤ (M : ℚ) := mul_le_of_le_one_left hMpos.le hc1
    calc ⌊c * (M : ℚ)⌋₊ ≤ ⌊(M : ℚ)⌋₊ := Nat.floor_mono this
      _ = M := Nat.floor_natCast M
  have heq : (Finset.range (M + 1)).filter (fun t => j < seats t) = Finset.Ico (⌊c * (M : ℚ)⌋₊ + 1) (M + 1) := by
    ext t
    simp only [Finset.mem_filter, Finset.mem_range, Finset.mem_Ico]
    constructor
    · rintro ⟨ht, hj⟩
      refine ⟨?_, ht⟩
      obtain ⟨out, h1, h2, h3⟩ := hseats t ht
      have h4 := select_ideal h3 hst h1 j
      rw [h2, hc, hM] at h4
      have h5 : ¬ (t : ℚ) / (M : ℚ) ≤ c := fun e => by have := h4.2 e; omega
      rw [div_le_iff₀ hMpos] at h5
      exact (Nat.floor_lt (mul_nonneg hc0 hMpos.le)).2 (not_le.1 h5)
    · rintro ⟨h1, ht⟩
      refine ⟨ht, ?_⟩
      obtain ⟨out, h2, h3, h4⟩ := hseats t ht
      have h5 := select_ideal h4 hst h2 j
      rw [h3, hc, hM] at h5
      by_contra hj
      have h6 := h5.1 (by omega)
      rw [div_le_iff₀ hMpos] at h6
      have := Nat.le_floor h6
      omega
  rw [heq, Nat.card_Ico]
  omega

/-! ## C58: verification -/

variable {G F : Type} [AddCommGroup G]

theorem verify_ok (C : Curve G) (Fl : Floats F) (hash : Bytes → Bytes) (proto : Params) (mem : Membership)
    (proof : Bytes) (c : Credential) (h : verify C Fl hash proto mem proof = .ok c) :
    ∃ out, verifyBytes C mem.record.selectionId proof (hash (mem.selector.id.bytes ++ mem.selector.data)) = .ok out ∧
      weigh Fl (votingStake mem.record.account) mem.total (mem.committeeSize proto)
        (selectionHash hash proto ⟨out, mem.record.addr, 0⟩) = .ok c.weight ∧ c.weight ≠ 0 ∧
      c = ⟨c.weight, selectionHash hash proto ⟨out, mem.record.addr, 0⟩, proto.credentialDomainSeparationEnabled,
        if proto.credentialDomainSeparationEnabled then some ⟨out, mem.record.addr, 0⟩ else none, proof⟩ := by
  rw [verify] at h
  cases hv : vrfVerify C hash mem.record.selectionId proof mem.selector with
  | panic => rw [hv] at h; simp at h
  | err e => rw [hv] at h; simp at h
  | ok out =>
    rw [hv] at h
    simp only at h
    cases hw : weigh Fl (votingStake mem.record.account) mem.total (mem.committeeSize proto)
        (selectionHash hash proto ⟨out, mem.record.addr, 0⟩) with
    | panic => rw [hw] at h; simp at h
    | err e => rw [hw] at h; simp at h
    | ok w =>
      rw [hw] at h
      simp only at h
      split at h
      · simp at h
      · rename_i h0
        simp only [Res.ok.injEq] at h
        subst h
        exact ⟨out, hv, hw, h0, rfl⟩

/-- C58: a credential is accepted only if its proof is valid for the selector under the account's selection key, the
account is online with a positive balance, the total is at least that balance and the committee is neither empty nor larger
than the total; its weight is positive and at most the account's balance, and it is the number of seats that the sortition
gives for the credential's digest. -/
theorem C58_accepted (C : Curve G) (Fl : Floats F) (hash : Bytes → Bytes) (proto : Params) (mem : Membership)
    (proof : Bytes) (c : Credential) (h : verify C Fl hash proto mem proof = .ok c) :
    (∃ out, verifyBytes C mem.record.selectionId proof (hash (mem.selector.id.bytes ++ mem.selector.data)) = .ok out) ∧
    mem.record.account.status = .online ∧ mem.record.account.microAlgos ≤ mem.total ∧
    0 < mem.committeeSize proto ∧ mem.committeeSize proto ≤ mem.total ∧
    0 < c.weight ∧ c.weight ≤ mem.record.account.microAlgos ∧ c.proof = proof ∧
    select Fl mem.record.account.microAlgos mem.total (Fl.ofU64 (mem.committeeSize proto)) c.vrfOut = .ok c.weight := by
  obtain ⟨out, hv, hw, h0, hc⟩ := verify_ok C Fl hash proto mem proof c h
  refine ⟨⟨out, hv⟩, ?_⟩
  have hout : c.vrfOut = selectionHash hash proto ⟨out, mem.record.addr, 0⟩ := by rw [hc]
  have hproof : c.proof = proof := by rw [hc]
  rw [← hout] at hw
  rw [weigh] at hw
  split at hw
  · simp at hw
  · rename_i h1
    split at hw
    · simp at hw
    · rename_i h2
      split at hw
      · rename_i h3
        have hon : mem.record.account.status = .online := by
          rw [votingStake] at h3
          cases hs : mem.record.account.status with
          | online => rfl
          | offline => rw [hs] at h3; exact absurd rfl h3
          | notParticipating => rw [hs] at h3; exact absurd rfl h3
        have hst : votingStake mem.record.account = mem.record.account.microAlgos := by rw [votingStake, hon]
        rw [hst] at hw h1
        have := (C57_least_count _ _ _ _ _ _ hw).1
        exact ⟨hon, by omega, by omega, by omega, by omega, this, hproof, hw⟩
      · simp only [Res.ok.injEq] at hw
        exact absurd hw.symm h0

/-- C58: an accepted credential reports that it is selected. -/
theorem C58_selected (C : Curve G) (Fl : Floats F) (hash : Bytes → Bytes) (proto : Params) (mem : Membership)
    (proof : Bytes) (c : Credential) (h : verify C Fl hash proto mem proof = .ok c) : selected c = true :=
  decide_eq_true (C58_accepted C Fl hash proto mem proof c h).2.2.2.2.2.1

/-- C58: the credential that the owner of the selection key makes for a selector is accepted with the seats that the
sortition gives for its digest, or it has no seats; it is never an invalid proof. -/
theorem C58_own_credential (C : Curve G) (hC : GoodCurve C) (Fl : Floats F) (hash : Bytes → Bytes) (proto : Params)
    (mem : Membership) (seed : Bytes) (hkey : mem.record.selectionId = (fromSeed C seed).pub)
    (hon : mem.record.account.status = .online) (hpos : 0 < mem.record.account.microAlgos)
    (htot : mem.record.account.microAlgos ≤ mem.total)
    (hsize : 0 < mem.committeeSize proto ∧ mem.committeeSize proto ≤ mem.total)
    (hvalid : ∀ n, Fl.valid (Fl.div (Fl.ofU64 (mem.committeeSize proto)) (Fl.ofU64 mem.total)) n = true) :
    ∃ h w, select Fl mem.record.account.microAlgos mem.total (Fl.ofU64 (mem.committeeSize proto)) h = .ok w ∧
      ((w = 0 ∧ verify C Fl hash proto mem (newCredential C hash (fromSeed C seed) mem.selector) = .err .zeroWeight) ∨
       (0 < w ∧ ∃ c, verify C Fl hash proto mem (newCredential C hash (fromSeed C seed) mem.selector) = .ok c ∧
        c.weight = w ∧ c.vrfOut = h)) := by
  obtain ⟨_, h1, h2⟩ := C24_prove_verifies C hC seed (hash (hashRep mem.selector))
  have hv : vrfVerify C hash mem.record.selectionId (newCredential C hash (fromSeed C seed) mem.selector) mem.selector =
      .ok (C.sha512 ([4, 3] ++ C.compress
      (8 • secretScalar C seed • hashToCurve C (fromSeed C seed).pub (hash (hashRep mem.selector))))) := by
    rw [vrfVerify, newCredential, hkey, h1, h2]
  generalize C.sha512 ([4, 3] ++ C.compress
      (8 • secretScalar C seed • hashToCurve C (fromSeed C seed).pub (hash (hashRep mem.selector)))) = out at hv
  have hst : votingStake mem.record.account = mem.record.account.microAlgos := by rw [votingStake, hon]
  obtain ⟨w, hw⟩ : ∃ w, select Fl mem.record.account.microAlgos mem.total (Fl.ofU64 (mem.committeeSize proto))
      (selectionHash hash proto ⟨out, mem.record.addr, 0⟩) = .ok w := by
    rw [select, cdfWalk, if_pos (hvalid _)]; exact ⟨_, rfl⟩
  refine ⟨selectionHash hash proto ⟨out, mem.record.addr, 0⟩, w, hw, ?_⟩
  have hwe : weigh Fl (votingStake mem.record.account) mem.total (mem.committeeSize proto)
      (selectionHash hash proto ⟨out, mem.record.addr, 0⟩) = .ok w := by
    rw [weigh, hst, if_neg (by omega), if_neg (by omega), if_pos (by omega)]
    exact hw
  rw [verify, hv]
  simp only [hwe]
  by_cases h0 : w = 0
  · left; rw [if_pos h0]; exact ⟨h0, rfl⟩
  · right; rw [if_neg h0]; exact ⟨by omega, _, rfl, rfl, rfl⟩

/-- C58: an invalid proof and an account without voting stake are rejected with an error, not a crash, whenever the
membership data make sense. -/
theorem C58_rejections (C : Curve G) (Fl : Floats F) (hash : Bytes → Bytes) (proto : Params) (mem : Membership) (proof : Bytes)
    (hsize : 0 < mem.committeeSize proto ∧ mem.committeeSize proto ≤ mem.total) :
    (verifyBytes C mem.record.selectionId proof (hash (mem.selector.id.bytes ++ mem.selector.data)) = .err .invalidProof →
      verify C Fl hash proto mem proof = .err (.vrf .invalidProof)) ∧
    (∀ out, verifyBytes C mem.record.selectionId proof (hash (mem.selector.id.bytes ++ mem.selector.data)) = .ok out →
      votingStake mem.record.account = 0 → verify C Fl hash proto mem proof = .err .zeroWeight) := by
  constructor
  · intro h
    have hv : vrfVerify C hash mem.record.selectionId proof mem.selector = .err .invalidProof := h
    rw [verify, hv]
  · intro out h h0
    have hv : vrfVerify C hash mem.record.selectionId proof mem.selector = .ok out := h
    rw [verify, hv]
    simp only [weigh, h0]
    rw [if_neg (by omega), if_neg (by omega)]
    simp

/-! ## C55: the weight depends on the VRF output -/

/-- C55 is violated under protocols with domain separation (which hash the credential without the VRF output): any two
accepted credentials of the same member in committees of the same size have the same digest and the same weight, whatever
the selectors, the seeds in them, the proofs and the keys. -/
theorem C55_same_in_every_round (C : Curve G) (Fl : Floats F) (hash : Bytes → Bytes) (proto : Params)
    (hd : proto.credentialDomainSeparationEnabled = true) (mem mem' : Membership) (proof proof' : Bytes) (c c' : Credential)
    (hacc : mem.record.account = mem'.record.account) (haddr : mem.record.addr = mem'.record.addr)
    (hsize : mem.committeeSize proto = mem'.committeeSize proto) (htot : mem.total = mem'.total)
    (h : verify C Fl hash proto mem proof = .ok c) (h' : verify C Fl hash proto mem' proof' = .ok c') :
    c.vrfOut = c'.vrfOut ∧ c.weight = c'.weight := by
  obtain ⟨out, _, hw, _, hc⟩ := verify_ok C Fl hash proto mem proof c h
  obtain ⟨out', _, hw', _, hc'⟩ := verify_ok C Fl hash proto mem' proof' c' h'
  have hs : selectionHash hash proto ⟨out, mem.record.addr, 0⟩ = selectionHash hash proto ⟨out', mem'.record.addr, 0⟩ := by
    rw [selectionHash, selectionHash, if_pos hd, if_pos hd, hashCredential, hashCredential, haddr]
  constructor
  · rw [hc, hc']; exact hs
  · rw [hacc, hs, hsize, htot] at hw
    rw [hw] at hw'
    exact Res.ok.inj hw'

/-- C55 is violated observably: any two such credentials compare equal (`==`), for whatever rounds they were made. -/
theorem C55_equal_in_every_round (C : Curve G) (Fl : Floats F) (hash : Bytes → Bytes) (proto : Params)
    (hd : proto.credentialDomainSeparationEnabled = true) (mem mem' : Membership) (proof proof' : Bytes) (c c' : Credential)
    (hacc : mem.record.account = mem'.record.account) (haddr : mem.record.addr = mem'.record.addr)
    (hsize : mem.committeeSize proto = mem'.committeeSize proto) (htot : mem.total = mem'.total)
    (h : verify C Fl hash proto mem proof = .ok c) (h' : verify C Fl hash proto mem' proof' = .ok c') :
    credEq c c' = true := by
  obtain ⟨e, _⟩ := C55_same_in_every_round C Fl hash proto hd mem mem' proof proof' c c' hacc haddr hsize htot h h'
  rw [credEq, e]
  exact beq_self_eq_true _

/-- C55 is violated also for members without seats: a member that has no seats in one round has none in any. -/
theorem C55_excluded_forever (C : Curve G) (Fl : Floats F) (hash : Bytes → Bytes) (proto : Params)
    (hd : proto.credentialDomainSeparationEnabled = true) (mem mem' : Membership) (proof proof' : Bytes) (out' : Bytes)
    (hacc : mem.record.account = mem'.record.account) (haddr : mem.record.addr = mem'.record.addr)
    (hsize : mem.committeeSize proto = mem'.committeeSize proto) (htot : mem.total = mem'.total)
    (h : verify C Fl hash proto mem proof = .err .zeroWeight)
    (h' : verifyBytes C mem'.record.selectionId proof' (hash (mem'.selector.id.bytes ++ mem'.selector.data)) = .ok out') :
    verify C Fl hash proto mem' proof' = .err .zeroWeight := by
  have hv' : vrfVerify C hash mem'.record.selectionId proof' mem'.selector = .ok out' := h'
  rw [verify] at h ⊢
  rw [hv']
  cases hv : vrfVerify C hash mem.record.selectionId proof mem.selector with
  | panic => rw [hv] at h; simp at h
  | err e => rw [hv] at h; simp at h
  | ok out =>
    rw [hv] at h
    have hs : selectionHash hash proto ⟨out, mem.record.addr, 0⟩ = selectionHash hash proto ⟨out', mem'.record.addr, 0⟩ := by
      rw [selectionHash, selectionHash, if_pos hd, if_pos hd, hashCredential, hashCredential, haddr]
    simp only [hs, hacc, hsize, htot] at h
    simp only
    cases hw : weigh Fl (votingStake mem'.record.account) mem'.total (mem'.committeeSize proto)
        (selectionHash hash proto ⟨out', mem'.record.addr, 0⟩) with
    | panic => rw [hw] at h; simp at h
    | err e => rw [hw] at h; simp at h
    | ok w =>
      rw [hw] at h
      simp only at h ⊢
      split at h
      · rename_i h0; rw [if_pos h0]
      · simp at h

/-- C55 without domain separation: the digests of two members or two VRF outputs are hashed from different strings, so equal
digests are an explicit collision. Missing: protocols with domain separation. -/
theorem C55_output_hashed_partial (C : Curve G) (Fl : Floats F) (hash : Bytes → Bytes) (hsha : ∀ b, (C.sha512 b).length = 64)
    (proto : Params) (hd : proto.credentialDomainSeparationEnabled = false) (mem mem' : Membership) (proof proof' : Bytes)
    (c c' : Credential) (h : verify C Fl hash proto mem proof = .ok c) (h' : verify C Fl hash proto mem' proof' = .ok c') :
    ∃ out out', verifyBytes C mem.record.selectionId proof (hash (mem.selector.id.bytes ++ mem.selector.data)) = .ok out ∧
      verifyBytes C mem'.record.selectionId proof' (hash (mem'.selector.id.bytes ++ mem'.selector.data)) = .ok out' ∧
      c.vrfOut = hash (out ++ mem.record.addr) ∧ c'.vrfOut = hash (out' ++ mem'.record.addr) ∧
      (c.vrfOut = c'.vrfOut → (out = out' ∧ mem.record.addr = mem'.record.addr) ∨
        (out ++ mem.record.addr ≠ out' ++ mem'.record.addr ∧
          hash (out ++ mem.record.addr) = hash (out' ++ mem'.record.addr))) := by
  obtain ⟨out, hv, _, _, hc⟩ := verify_ok C Fl hash proto mem proof c h
  obtain ⟨out', hv', _, _, hc'⟩ := verify_ok C Fl hash proto mem' proof' c' h'
  have e : c.vrfOut = hash (out ++ mem.record.addr) := by rw [hc]; simp [selectionHash, hd]
  have e' : c'.vrfOut = hash (out' ++ mem'.record.addr) := by rw [hc']; simp [selectionHash, hd]
  have len : ∀ pk p m o, verifyBytes C pk p m = .ok o → o.length = 64 := by
    intro pk p m o ho
    have := C24_output_of_accepted C pk p m o ho
    rw [toOutput] at this
    cases hdec : decodeProof C p with
    | none => rw [hdec] at this; simp at this
    | some t =>
      rw [hdec] at this
      simp only [Res.ok.injEq] at this
      rw [← this]; exact hsha _
  refine ⟨out, out', hv, hv', e, e', fun heq => ?_⟩
  by_cases hs : out ++ mem.record.addr = out' ++ mem'.record.addr
  · left
    exact List.append_inj hs (by rw [len _ _ _ _ hv, len _ _ _ _ hv'])
  · right
    exact ⟨hs, by rw [← e, ← e', heq]⟩

/-- The specification of the string hashed for a credential: with domain separation the member only. -/
def credentialString (separation : Bool) (out addr : Bytes) : Bytes :=
  if separation then HashId.credential.bytes ++ ([0x92, 0xc4, 32] ++ addr ++ [0]) else out ++ addr

/-- C55 for comparison (`==`): accepted credentials compare equal only if they are of the same member, and without domain
separation only if also their VRF outputs are the same, or the two strings hashed for them collide. Missing: the VRF outputs
under protocols with domain separation (`C55_equal_in_every_round`). -/
theorem C55_equal_partial (C : Curve G) (Fl : Floats F) (hash : Bytes → Bytes) (hsha : ∀ b, (C.sha512 b).length = 64)
    (proto : Params) (mem mem' : Membership) (ha : mem.record.addr.length = 32) (ha' : mem'.record.addr.length = 32)
    (proof proof' : Bytes) (c c' : Credential) (h : verify C Fl hash proto mem proof = .ok c)
    (h' : verify C Fl hash proto mem' proof' = .ok c') :
    ∃ out out', verifyBytes C mem.record.selectionId proof (hash (mem.selector.id.bytes ++ mem.selector.data)) = .ok out ∧
      verifyBytes C mem'.record.selectionId proof' (hash (mem'.selector.id.bytes ++ mem'.selector.data)) = .ok out' ∧
      let x := credentialString proto.credentialDomainSeparationEnabled out mem.record.addr
      let y := credentialString proto.credentialDomainSeparationEnabled out' mem'.record.addr
      (credEq c c' = true ↔ hash x = hash y) ∧
      (credEq c c' = true → (mem.record.addr = mem'.record.addr ∧
          (proto.credentialDomainSeparationEnabled = false → out = out')) ∨ (x ≠ y ∧ hash x = hash y)) := by
  obtain ⟨out, hv, _, _, hc⟩ := verify_ok C Fl hash proto mem proof c h
  obtain ⟨out', hv', _, _, hc'⟩ := verify_ok C Fl hash proto mem' proof' c' h'
  have form : ∀ a : Bytes, a.length = 32 → enc (credentialMP a 0) = [0x92, 0xc4, 32] ++ a ++ [0] := by
    intro a hl
    simp [credentialMP, enc, encList, arrHeader, binHeader, encUint, hl, beBytes]
  have e : ∀ (m : Membership) (cc : Credential) (o : Bytes), m.record.addr.length = 32 →
      cc.vrfOut = selectionHash hash proto ⟨o, m.record.addr, 0⟩ →
      cc.vrfOut = hash (credentialString proto.credentialDomainSeparationEnabled o m.record.addr) := by
    intro m cc o hl hcc
    rw [hcc, selectionHash, credentialString]
    split
    · rw [hashCredential, hashRep, form _ hl]
    · rfl
  have e1 := e mem c out ha (by rw [hc])
  have e2 := e mem' c' out' ha' (by rw [hc'])
  have len : ∀ pk p m o, verifyBytes C pk p m = .ok o → o.length = 64 := by
    intro pk p m o ho
    have := C24_output_of_accepted C pk p m o ho
    rw [toOutput] at this
    cases hdec : decodeProof C p with
    | none => rw [hdec] at this; simp at this
    | some t =>
      rw [hdec] at this
      simp only [Res.ok.injEq] at this
      rw [← this]; exact hsha _
  have heq : credEq c c' = true ↔ hash (credentialString proto.credentialDomainSeparationEnabled out mem.record.addr) =
      hash (credentialString proto.credentialDomainSeparationEnabled out' mem'.record.addr) := by
    rw [← e1, ← e2]; simp [credEq]
  refine ⟨out, out', hv, hv', heq, fun he => ?_⟩
  by_cases hs : credentialString proto.credentialDomainSeparationEnabled out mem.record.addr =
      credentialString proto.credentialDomainSeparationEnabled out' mem'.record.addr
  · left
    cases hd : proto.credentialDomainSeparationEnabled with
    | false =>
      simp only [hd, credentialString, Bool.false_eq_true, if_false] at hs
      obtain ⟨h1, h2⟩ := List.append_inj hs (by rw [len _ _ _ _ hv, len _ _ _ _ hv'])
      exact ⟨h2, fun _ => h1⟩
    | true =>
      simp [hd, credentialString] at hs
      exact ⟨hs, fun h => by simp at h⟩
  · exact .inr ⟨hs, heq.1 he⟩

/-! ## C56: the lowest output -/

/-- Specification: the number hashed for unit `i` of a credential. -/
def unitNumber (hash : Bytes → Bytes) (c : Credential) (i : Nat) : Nat :=
  match c.domainSeparation, c.hashable with
  | true, some h => ofBE (hash (HashId.credential.bytes ++ enc (credentialMP h.member i)))
  | _, _ => ofBE (hash (c.vrfOut ++ (beBytes 8 i ++ List.replicate 24 0)))

/-- Credentials made by verification keep the hashable part exactly if domain separation is on. -/
def Consistent (c : Credential) : Prop := c.domainSeparation = true → ∃ h, c.hashable = some h

theorem verify_consistent (C : Curve G) (Fl : Floats F) (hash : Bytes → Bytes) (proto : Params) (mem : Membership)
    (proof : Bytes) (c : Credential) (h : verify C Fl hash proto mem proof = .ok c) : Consistent c := by
  obtain ⟨out, _, _, _, hc⟩ := verify_ok C Fl hash proto mem proof c h
  intro hd
  rw [hc] at hd ⊢
  simp only at hd
  exact ⟨⟨out, mem.record.addr, 0⟩, by simp [hd]⟩

/-- Two credentials that differ in the counter of the hashable part at most. -/
def SameUnits (a b : Credential) : Prop :=
  a.weight = b.weight ∧ a.vrfOut = b.vrfOut ∧ a.domainSeparation = b.domainSeparation ∧ a.proof = b.proof ∧
  a.hashable.map (fun h => (h.rawOut, h.member)) = b.hashable.map (fun h => (h.rawOut, h.member))

theorem SameUnits.number {hash : Bytes → Bytes} {a b : Credential} (h : SameUnits a b) (i : Nat) :
    unitNumber hash a i = unitNumber hash b i := by
  obtain ⟨aw, av, ad, ah, ap⟩ := a
  obtain ⟨bw, bv, bd, bh, bp⟩ := b
  obtain ⟨h1, h2, h3, h4, h5⟩ := h
  simp only at h1 h2 h3 h4 h5
  subst h1 h2 h3 h4
  cases ah with
  | none => cases bh with
    | none => rfl
    | some => simp at h5
  | some x => cases bh with
    | none => simp at h5
    | some y =>
      simp only [Option.map_some, Option.some.injEq, Prod.mk.injEq] at h5
      cases ad <;> simp [unitNumber, h5]

theorem SameUnits.trans {a b c : Credential} (h : SameUnits a b) (h' : SameUnits b c) : SameUnits a c :=
  ⟨h.1.trans h'.1, h.2.1.trans h'.2.1, h.2.2.1.trans h'.2.2.1, h.2.2.2.1.trans h'.2.2.2.1, h.2.2.2.2.trans h'.2.2.2.2⟩

theorem SameUnits.consistent {a b : Credential} (h : SameUnits a b) (ha : Consistent a) : Consistent b := by
  intro hb
  rw [← h.2.2.1] at hb
  obtain ⟨x, hx⟩ := ha hb
  have := h.2.2.2.2
  rw [hx] at this
  cases hy : b.hashable with
  | none => rw [hy] at this; simp at this
  | some y => exact ⟨y, rfl⟩

theorem unitHash_ok (hash : Bytes → Bytes) (c : Credential) (hc : Consistent c) (i : Nat) :
    ∃ h c', unitHash hash c i = .ok (h, c') ∧ ofBE h = unitNumber hash c i ∧ SameUnits c c' ∧
      (∃ s, h = hash s) := by
  obtain ⟨w, v, d, hh, p⟩ := c
  cases d with
  | true =>
    obtain ⟨x, hx⟩ := hc rfl
    simp only at hx
    subst hx
    exact ⟨_, _, rfl, rfl, ⟨rfl, rfl, rfl, rfl, rfl⟩, _, rfl⟩
  | false =>
    refine ⟨_, _, rfl, ?_, ⟨rfl, rfl, rfl, rfl, rfl⟩, _, rfl⟩
    simp [unitNumber]

theorem lowestLoop_spec (hash : Bytes → Bytes) (c0 : Credential) : ∀ (n i lowest : Nat) (c : Credential),
    Consistent c → SameUnits c0 c → 1 ≤ i →
    (i = 1 ∨ ((∃ k, 1 ≤ k ∧ k < i ∧ lowest = unitNumber hash c0 k) ∧ ∀ k, 1 ≤ k → k < i → lowest ≤ unitNumber hash c0 k)) →
    ∃ r c', lowestLoop hash n i lowest c = .ok (r, c') ∧ SameUnits c0 c' ∧
      (i + n = 1 → r = lowest) ∧
      (1 < i + n → (∃ k, 1 ≤ k ∧ k < i + n ∧ r = unitNumber hash c0 k) ∧ ∀ k, 1 ≤ k → k < i + n → r ≤ unitNumber hash c0 k)
  | 0, i, lowest, c, hc, hs, hi, hl => by
    refine ⟨lowest, c, rfl, hs, fun _ => rfl, fun h => ?_⟩
    rcases hl with hl | hl
    · omega
    · exact hl
  | n + 1, i, lowest, c, hc, hs, hi, hl => by
    obtain ⟨h, c', h1, h2, h3, _⟩ := unitHash_ok hash c hc i
    rw [← hs.number] at h2
    have hstep : ∀ low', (low' = if i = 1 then ofBE h else if ofBE h < lowest then ofBE h else lowest) →
        (∃ k, 1 ≤ k ∧ k < i + 1 ∧ low' = unitNumber hash c0 k) ∧ ∀ k, 1 ≤ k → k < i + 1 → low' ≤ unitNumber hash c0 k := by
      intro low' e
      rw [h2] at e
      rcases hl with hl | ⟨⟨k, k1, k2, k3⟩, hmin⟩
      · rw [if_pos hl] at e
        refine ⟨⟨i, hi, by omega, e⟩, fun k k1 k2 => ?_⟩
        have : k = i := by omega
        rw [this, e]
      · by_cases hi1 : i = 1
        · omega
        · rw [if_neg hi1] at e
          split at e
          · rename_i hlt
            refine ⟨⟨i, hi, by omega, e⟩, fun j j1 j2 => ?_⟩
            rcases Nat.lt_or_ge j i with hj | hj
            · have := hmin j j1 hj; omega
            · have : j = i := by omega
              rw [this, e]
          · rename_i hge
            refine ⟨⟨k, k1, by omega, by rw [e, k3]⟩, fun j j1 j2 => ?_⟩
            rcases Nat.lt_or_ge j i with hj | hj
            · have := hmin j j1 hj; omega
            · have : j = i := by omega
              rw [this, e]; omega
    obtain ⟨r, c'', r1, r2, r3, r4⟩ := lowestLoop_spec hash c0 n (i + 1) _ c' (h3.consistent hc) (hs.trans h3) (by omega)
      (Or.inr (hstep _ rfl))
    refine ⟨r, c'', ?_, r2, fun h => by omega, fun h => ?_⟩
    · rw [lowestLoop, h1, Res.ok_bind]
      exact r1
    · have := r4 (by omega)
      rw [show i + 1 + n = i + (n + 1) by omega] at this
      exact this

/-- C56, what does hold: for a weight of at least two, the lowest output is the minimum of the numbers of the units
`1 .. w-1`. Missing: unit `w`, and weight one. -/
theorem C56_minimum_partial (hash : Bytes → Bytes) (c : Credential) (hc : Consistent c) (hw : 2 ≤ c.weight) :
    ∃ r c', lowestOutput hash c = .ok (r, c') ∧
      (∃ i, 1 ≤ i ∧ i < c.weight ∧ r = unitNumber hash c i) ∧ ∀ i, 1 ≤ i → i < c.weight → r ≤ unitNumber hash c i := by
  obtain ⟨r, c', h1, _, _, h2⟩ := lowestLoop_spec hash c (c.weight - 1) 1 0 c hc ⟨rfl, rfl, rfl, rfl, rfl⟩ (by omega)
    (Or.inl rfl)
  have := h2 (by omega)
  rw [show 1 + (c.weight - 1) = c.weight by omega] at this
  exact ⟨r, c', h1, this⟩

/-- C56 is violated: a credential of weight one has the lowest output zero, the minimum of nothing. -/
theorem C56_weight_one_empty (hash : Bytes → Bytes) (c : Credential) (hw : c.weight = 1) :
    lowestOutput hash c = .ok (0, c) := by
  rw [lowestOutput, hw]; rfl

/-- C56 is violated observably: every credential of weight one beats every credential of larger weight none of whose units
hashes to zero, whatever the hashes are. -/
theorem C56_weight_one_wins (hash : Bytes → Bytes) (a b : Credential) (ha : a.weight = 1) (hb : 2 ≤ b.weight)
    (hcb : Consistent b) (hz : ∀ i, unitNumber hash b i ≠ 0) :
    ∃ b', lt hash a b = .ok (true, a, b') := by
  obtain ⟨r, b', h1, ⟨i, _, _, h2⟩, _⟩ := C56_minimum_partial hash b hcb hb
  refine ⟨b', ?_⟩
  rw [lt, C56_weight_one_empty hash a ha, Res.ok_bind]
  simp only [h1, Res.ok_bind]
  have : 0 < r := by have := hz i; omega
  simp [this]

/-- C56 is violated for larger weights too: the output of a credential of weight `w` is that of weight `w`'s first `w - 1`
units; the last unit has no influence: two hash functions that differ only there give the same lowest output. -/
theorem C56_last_unit_ignored (hash hash' : Bytes → Bytes) (c : Credential) (hc : Consistent c) (hw : 2 ≤ c.weight)
    (hsame : ∀ i, i < c.weight → unitNumber hash c i = unitNumber hash' c i) :
    ∃ r c1 c2, lowestOutput hash c = .ok (r, c1) ∧ lowestOutput hash' c = .ok (r, c2) := by
  obtain ⟨r, c1, h1, ⟨i, i1, i2, i3⟩, h2⟩ := C56_minimum_partial hash c hc hw
  obtain ⟨r', c2, h1', ⟨i', i1', i2', i3'⟩, h2'⟩ := C56_minimum_partial hash' c hc hw
  have a := h2 i' i1' i2'
  have b := h2' i i1 i2
  rw [hsame i' i2'] at a
  rw [← hsame i i2] at b
  have : r = r' := by omega
  exact ⟨r, c1, c2, h1, by rw [this]; exact h1'⟩

/-- A credential of weight three. -/
def toyCredential (w : Nat) : Credential := ⟨w, List.replicate 32 9, true, some ⟨[], List.replicate 32 1, 0⟩, []⟩

example : Consistent (toyCredential 3) ∧ 2 ≤ (toyCredential 3).weight := ⟨fun _ => ⟨_, rfl⟩, by decide⟩

/-- With the last byte of the text as the hash, the units of a credential of weight three are numbered 1 and 2. -/
example : lowestOutput (fun s => [s.getLastD 0]) (toyCredential 3) =
    .ok (1, { toyCredential 3 with hashable := some ⟨[], List.replicate 32 1, 2⟩ }) := by decide +kernel

/-! ## C89: printing and comparing lowest outputs -/

theorem minBytes_val (n : Nat) : ofBE (minBytes n) = n := by
  induction n using Nat.strongRecOn with
  | ind n ih =>
    rw [minBytes]
    split
    · rename_i h
      simp [ofBE, UInt8.toNat_ofNat', Nat.mod_eq_of_lt h]
    · rename_i h
      rw [beVal_append, ih (n / 256) (by omega), UInt8.toNat_ofNat']
      omega

theorem minBytes_len (n : Nat) : ∀ k, n < 256 ^ (k + 1) → (minBytes n).length ≤ k + 1 := by
  induction n using Nat.strongRecOn with
  | ind n ih =>
    intro k hk
    rw [minBytes]
    split
    · simp
    · rename_i h
      cases k with
      | zero => simp at hk; omega
      | succ k =>
        have := ih (n / 256) (by omega) k (by
          rw [Nat.pow_succ] at hk
          exact Nat.div_lt_of_lt_mul (by rw [Nat.mul_comm]; exact hk))
        rw [List.length_append, List.length_singleton]
        omega

theorem beVal_zeros (k : Nat) (l : Bytes) : ofBE (List.replicate k 0 ++ l) = ofBE l := by
  induction k with
  | zero => rfl
  | succ k ih =>
    rw [← ih]
    simp [List.replicate_succ, ofBE]

/-- Two strings of the same length with the same value are the same. -/
theorem beVal_inj : ∀ {a b : Bytes}, a.length = b.length → ofBE a = ofBE b → a = b := by
  intro a
  induction a using List.reverseRecOn with
  | nil =>
    intro b hl _
    simp at hl
    exact (List.eq_nil_of_length_eq_zero hl.symm).symm
  | append_singleton a x ih =>
    intro b
    induction b using List.reverseRecOn with
    | nil => intro hl; simp at hl
    | append_singleton b y _ =>
      intro hl hv
      simp only [List.length_append, List.length_singleton] at hl
      rw [beVal_append, beVal_append] at hv
      have hx := x.toNat_lt
      have hy := y.toNat_lt
      rw [ih (b := b) (by omega) (by omega), show x = y from UInt8.toNat_inj.1 (by omega)]

/-- C89: the printed form of the lowest output always exists, has 32 bytes and is the big endian form of the number; for a
weight of at least two it is the digest of the winning unit itself. The credential is unchanged up to its counter, so that
asking again gives the same answer. -/
theorem C89_digest (hash : Bytes → Bytes) (hH : ∀ x, (hash x).length = 32) (c : Credential) (hc : Consistent c) :
    ∃ n c' d c'', lowestOutput hash c = .ok (n, c') ∧ lowestOutputDigest hash c = .ok (d, c'') ∧
      d.length = 32 ∧ ofBE d = n ∧
      (2 ≤ c.weight → ∃ s, d = hash s) ∧
      (∃ c3, lowestOutput hash c' = .ok (n, c3)) ∧ (∃ c4, lowestOutputDigest hash c'' = .ok (d, c4)) := by
  have unit_lt : ∀ (c : Credential) i, unitNumber hash c i < 256 ^ 32 := by
    intro c i
    rw [unitNumber]
    split
    · exact lt_of_lt_of_eq (beVal_lt _) (by rw [hH])
    · exact lt_of_lt_of_eq (beVal_lt _) (by rw [hH])
  have run : ∀ c : Credential, Consistent c → ∃ n c', lowestOutput hash c = .ok (n, c') ∧ SameUnits c c' ∧ n < 256 ^ 32 ∧
      (c.weight < 2 → n = 0) ∧ (2 ≤ c.weight → (∃ i, 1 ≤ i ∧ i < c.weight ∧ n = unitNumber hash c i) ∧
        ∀ i, 1 ≤ i → i < c.weight → n ≤ unitNumber hash c i) := by
    intro c hc
    obtain ⟨r, c', h1, h2, h3, h4⟩ := lowestLoop_spec hash c (c.weight - 1) 1 0 c hc ⟨rfl, rfl, rfl, rfl, rfl⟩ (by omega)
      (Or.inl rfl)
    by_cases hw : 2 ≤ c.weight
    · have := h4 (by omega)
      rw [show 1 + (c.weight - 1) = c.weight by omega] at this
      refine ⟨r, c', h1, h2, ?_, fun h => by omega, fun _ => this⟩
      obtain ⟨⟨i, _, _, e⟩, _⟩ := this
      rw [e]; exact unit_lt c i
    · have h0 := h3 (by omega)
      refine ⟨r, c', h1, h2, ?_, fun _ => h0, fun h => absurd h hw⟩
      rw [h0]; exact Nat.pow_pos (by decide)
  have det : ∀ (a b : Credential) (n m : Nat) (a' b' : Credential), SameUnits a b → Consistent a →
      lowestOutput hash a = .ok (n, a') → lowestOutput hash b = .ok (m, b') → n = m := by
    intro a b n m a' b' hab ha h1 h2
    obtain ⟨n1, a1, e1, _, _, z1, m1⟩ := run a ha
    obtain ⟨n2, b1, e2, _, _, z2, m2⟩ := run b (hab.consistent ha)
    rw [h1] at e1
    rw [h2] at e2
    simp only [Res.ok.injEq, Prod.mk.injEq] at e1 e2
    rw [e1.1, e2.1]
    by_cases hw : 2 ≤ a.weight
    · obtain ⟨⟨i, i1, i2, i3⟩, hi⟩ := m1 hw
      obtain ⟨⟨k, k1, k2, k3⟩, hk⟩ := m2 (by rw [← hab.1]; exact hw)
      rw [← hab.1] at k2
      have x := hi k k1 k2
      have y := hk i i1 (by rw [← hab.1]; exact i2)
      rw [hab.number] at x
      rw [← hab.number] at y
      omega
    · rw [z1 (by omega), z2 (by rw [← hab.1]; omega)]
  obtain ⟨n, c', h1, h2, h3, h4, h5⟩ := run c hc
  have hlen : (minBytes n).length ≤ 32 := minBytes_len n 31 h3
  have hd : ∀ (a a' : Credential), lowestOutput hash a = .ok (n, a') →
      lowestOutputDigest hash a = .ok (List.replicate (32 - (minBytes n).length) 0 ++ minBytes n, a') := by
    intro a a' h
    rw [lowestOutputDigest, h, Res.ok_bind]
    exact if_neg (by omega)
  have dlen : (List.replicate (32 - (minBytes n).length) 0 ++ minBytes n).length = 32 := by simp; omega
  have dval : ofBE (List.replicate (32 - (minBytes n).length) 0 ++ minBytes n) = n := by rw [beVal_zeros, minBytes_val]
  obtain ⟨m, c3, e3, _, _, _, _⟩ := run c' (h2.consistent hc)
  have hm := det c c' n m c' c3 h2 hc h1 e3
  subst hm
  refine ⟨n, c', _, c', h1, hd c c' h1, dlen, dval, ?_, ⟨c3, e3⟩, ⟨c3, hd c' c3 e3⟩⟩
  intro hw
  obtain ⟨⟨i, _, _, e⟩, _⟩ := h5 hw
  obtain ⟨h, _, _, hv, _, s, hs⟩ := unitHash_ok hash c hc i
  refine ⟨s, ?_⟩
  rw [← hs]
  exact beVal_inj (by rw [dlen, hs, hH]) (by rw [dval, e, hv])

/-- C89: a credential never beats itself, and beating is transitive. -/
theorem C89_strict_order (hash : Bytes → Bytes) (a b c : Credential) :
    (∀ x y, lt hash a a ≠ .ok (true, x, y)) ∧
    ((∃ x y, lt hash a b = .ok (true, x, y)) → (∃ x y, lt hash b c = .ok (true, x, y)) →
      ∃ x y, lt hash a c = .ok (true, x, y)) := by
  constructor
  · intro x y h
    rw [lt] at h
    obtain ⟨⟨n, a'⟩, h1, h⟩ := Res.bind_eq_ok.1 h
    rw [h1] at h
    simp at h
  · rintro ⟨x, y, h⟩ ⟨z, w, h'⟩
    rw [lt] at h h'
    obtain ⟨⟨n, a'⟩, h1, h⟩ := Res.bind_eq_ok.1 h
    obtain ⟨⟨m, b'⟩, h2, h⟩ := Res.bind_eq_ok.1 h
    obtain ⟨⟨m', b''⟩, h3, h'⟩ := Res.bind_eq_ok.1 h'
    obtain ⟨⟨k, c'⟩, h4, h'⟩ := Res.bind_eq_ok.1 h'
    rw [h2] at h3
    simp only [Res.ok.injEq, Prod.mk.injEq] at h h' h3
    obtain ⟨rfl, _⟩ := h3
    have e1 := of_decide_eq_true h.1
    have e2 := of_decide_eq_true h'.1
    refine ⟨a', c', ?_⟩
    rw [lt, h1, Res.ok_bind]
    simp only [h4, Res.ok_bind]
    have : n < k := by omega
    simp [this]

example : lt (fun s => [s.getLastD 0]) (toyCredential 1) (toyCredential 3) =
    .ok (true, toyCredential 1, { toyCredential 3 with hashable := some ⟨[], List.replicate 32 1, 2⟩ }) := by decide +kernel

/-- The hypothesis of `C88_share_of_draws` is met by the sortition itself. -/
example (m total size : Nat) (hst : size ≤ total) : ∃ seats : Nat → Nat, ∀ t, t < 2 ^ 256 → ∃ out : Bytes, out.length = 32 ∧
    ofBE out = t ∧ select ideal m total (size : ℚ) out = .ok (seats t) := by
  have h : ∀ t, ∃ w, t < 2 ^ 256 → ∃ out : Bytes, out.length = 32 ∧ ofBE out = t ∧
      select ideal m total (size : ℚ) out = .ok w := by
    intro t
    by_cases ht : t < 2 ^ 256
    · have hlen : (minBytes t).length ≤ 32 := minBytes_len t 31 (lt_of_lt_of_eq ht (by norm_num))
      have hl : (List.replicate (32 - (minBytes t).length) 0 ++ minBytes t).length = 32 := by simp; omega
      obtain ⟨w, hw, _⟩ := C57_exact m total size _ hst hl
      exact ⟨w, fun _ => ⟨_, hl, by rw [beVal_zeros, minBytes_val], hw⟩⟩
    · exact ⟨0, fun h => absurd h ht⟩
  exact ⟨fun t => (h t).choose, fun t => (h t).choose_spec⟩

/-! ## A member of a committee -/

/-- Membership data of an online account with 105 of 1000 units of stake. -/
def toyMember : Membership := ⟨⟨toyAccount, (fromSeed toyCurve []).pub, List.replicate 32 1⟩, ⟨.agreementSelector, [1, 2]⟩,
  fun _ => 20, 1000⟩

/-- Arithmetic in which every draw takes all seats. -/
def greedy : Floats Unit := ⟨fun _ => (), fun _ _ => (), fun _ => (), fun _ _ => true, fun _ _ _ => (), fun _ _ => false⟩

/-- The hypotheses of the theorems on accepted credentials are met, with and without domain separation. -/
example (hash : Bytes → Bytes) (proto : Params) : ∃ c, verify toyCurve greedy hash proto toyMember
    (newCredential toyCurve hash (fromSeed toyCurve []) toyMember.selector) = .ok c ∧ c.weight = 105 := by
  obtain ⟨h, w, hw, hc⟩ := C58_own_credential toyCurve toyCurve_good greedy hash proto toyMember [] rfl rfl (by decide)
    (by decide) ⟨show 0 < 20 by decide, show 20 ≤ 1000 by decide⟩ (fun _ => rfl)
  have : w = 105 := by
    rw [select, cdfWalk, if_pos (show greedy.valid _ _ = true from rfl)] at hw
    have hf : (List.range toyMember.record.account.microAlgos).find? (fun i => greedy.ge (greedy.cdf (greedy.div (greedy.ofU64
        (toyMember.committeeSize proto)) (greedy.ofU64 toyMember.total)) toyMember.record.account.microAlgos i)
        (greedy.ratio (ofBE h))) = none := by
      rw [List.find?_eq_none]
      intro i _
      simp [greedy]
    rw [hf] at hw
    exact (Res.ok.inj hw).symm
  subst this
  rcases hc with ⟨h0, _⟩ | ⟨_, c, h1, h2, _⟩
  · simp at h0
  · exact ⟨c, h1, h2⟩

/-- Domain separation is on in the current protocol and off in the first ones. -/
example : (lookup builtin .v30).map (·.credentialDomainSeparationEnabled) = some true ∧
    (lookup builtin .v7).map (·.credentialDomainSeparationEnabled) = some false := by decide +kernel

/-! ## Cases -/

/-- A case of `C57_least_count`: all of the stake is chosen. -/
example (out : Bytes) : ∃ w, select greedy 3 10 () out = .ok w ∧ w ≤ 3 :=
  ⟨3, rfl, (C57_least_count greedy 3 10 () out 3 rfl).1⟩

/-- Exact arithmetic chooses some number of seats for every stake, ten units of total stake and a committee of one. -/
theorem idealSome (m total size : Nat) (hst : size ≤ total) (out : Bytes) (ho : out.length = 32) :
    ∃ w, select ideal m total (size : ℚ) out = .ok w :=
  let ⟨w, h, _⟩ := C57_exact m total size out hst ho
  ⟨w, h⟩

/-- A case of `C57_monotone`: a higher draw. -/
example : ∃ w w', select ideal 3 10 ((1 : Nat) : ℚ) (List.replicate 31 0 ++ [1]) = .ok w ∧
    select ideal 3 10 ((1 : Nat) : ℚ) (List.replicate 32 255) = .ok w' ∧ w ≤ w' := by
  obtain ⟨w, h⟩ := idealSome 3 10 1 (by decide) (List.replicate 31 0 ++ [1]) (by decide)
  obtain ⟨w', h'⟩ := idealSome 3 10 1 (by decide) (List.replicate 32 255) (by decide)
  refine ⟨w, w', h, h', C57_monotone ideal 3 10 _ _ _ w w' (fun x hx => ?_) h h'⟩
  have hx : ideal.ratio (ofBE (List.replicate 32 255)) ≤ x := of_decide_eq_true hx
  refine decide_eq_true (le_trans ?_ hx)
  show ((ofBE (List.replicate 31 0 ++ [1]) : Nat) : ℚ) / _ ≤ ((ofBE (List.replicate 32 255) : Nat) : ℚ) / _
  have : ((ofBE (List.replicate 31 0 ++ [1]) : Nat) : ℚ) ≤ ((ofBE (List.replicate 32 255) : Nat) : ℚ) := by
    exact_mod_cast (by decide +kernel : ofBE (List.replicate 31 0 ++ [1]) ≤ ofBE (List.replicate 32 255))
  exact div_le_div_of_nonneg_right this (by positivity)

/-- Cases of `C88_more_stake`, `C88_larger_committee` and `C88_larger_total`. -/
example (out : Bytes) (ho : out.length = 32) : ∃ w more committee total, select ideal 3 10 ((1 : Nat) : ℚ) out = .ok w ∧
    select ideal 4 10 ((1 : Nat) : ℚ) out = .ok more ∧ select ideal 3 10 ((2 : Nat) : ℚ) out = .ok committee ∧
    select ideal 3 11 ((1 : Nat) : ℚ) out = .ok total ∧ w ≤ more ∧ w ≤ committee ∧ total ≤ w := by
  obtain ⟨w, h⟩ := idealSome 3 10 1 (by decide) out ho
  obtain ⟨w1, h1⟩ := idealSome 4 10 1 (by decide) out ho
  obtain ⟨w2, h2⟩ := idealSome 3 10 2 (by decide) out ho
  obtain ⟨w3, h3⟩ := idealSome 3 11 1 (by decide) out ho
  exact ⟨w, w1, w2, w3, h, h1, h2, h3, C88_more_stake 3 4 10 1 out (by decide) (by decide) ho w w1 h h1,
    C88_larger_committee 3 10 1 2 out (by decide) (by decide) ho w w2 h h2,
    C88_larger_total 3 10 11 1 out (by decide) (by decide) (by decide) ho w w3 h h3⟩

/-- The example member with another selector. -/
def memberFor (sel : ToBeHashed) : Membership := { toyMember with selector := sel }

/-- The example member's own credential for any selector. -/
theorem toyCredentialFor (hash : Bytes → Bytes) (proto : Params) (sel : ToBeHashed) :
    ∃ c, verify toyCurve greedy hash proto (memberFor sel)
      (newCredential toyCurve hash (fromSeed toyCurve []) sel) = .ok c ∧ c.weight = 105 := by
  obtain ⟨h, w, hw, hc⟩ := C58_own_credential toyCurve toyCurve_good greedy hash proto (memberFor sel) [] rfl rfl
    (show 0 < 105 by decide) (show 105 ≤ 1000 by decide) ⟨show 0 < 20 by decide, show 20 ≤ 1000 by decide⟩ (fun _ => rfl)
  have : w = 105 := by
    obtain ⟨_, h2, _⟩ := C57_least_count greedy _ _ _ _ _ hw
    rw [select, cdfWalk, if_pos (show greedy.valid _ _ = true from rfl)] at hw
    rw [List.find?_eq_none.2 (by intro i _; simp [greedy])] at hw
    exact (Res.ok.inj hw).symm
  subst this
  rcases hc with ⟨h0, _⟩ | ⟨_, c, h1, h2, _⟩
  · simp at h0
  · exact ⟨c, h1, h2⟩

/-- A case of `C58_accepted` and `C58_selected`. -/
example (hash : Bytes → Bytes) (proto : Params) : ∃ c, selected c = true ∧
    select greedy 105 1000 () c.vrfOut = .ok c.weight := by
  obtain ⟨c, h, _⟩ := toyCredentialFor hash proto ⟨.agreementSelector, [1, 2]⟩
  exact ⟨c, C58_selected _ _ _ _ _ _ _ h, (C58_accepted _ _ _ _ _ _ _ h).2.2.2.2.2.2.2.2⟩

/-- A case of `C58_rejections`: the same proof for an account that is offline. -/
example (hash : Bytes → Bytes) (proto : Params) : verify toyCurve greedy hash proto
    { toyMember with record := { toyMember.record with account := { toyAccount with status := .offline } } }
    (newCredential toyCurve hash (fromSeed toyCurve []) toyMember.selector) = .err .zeroWeight := by
  obtain ⟨c, h, _⟩ := toyCredentialFor hash proto toyMember.selector
  obtain ⟨out, hout⟩ := (C58_accepted _ _ _ _ _ _ _ h).1
  exact (C58_rejections _ _ _ _ _ _ ⟨show 0 < 20 by decide, show 20 ≤ 1000 by decide⟩).2 out hout rfl

/-- A case of `C55_same_in_every_round` and `C55_equal_in_every_round`: two selectors, one result. -/
example (hash : Bytes → Bytes) (proto : Params) (hd : proto.credentialDomainSeparationEnabled = true) : ∃ c c',
    verify toyCurve greedy hash proto (memberFor ⟨.agreementSelector, [1]⟩)
      (newCredential toyCurve hash (fromSeed toyCurve []) ⟨.agreementSelector, [1]⟩) = .ok c ∧
    verify toyCurve greedy hash proto (memberFor ⟨.agreementSelector, [2]⟩)
      (newCredential toyCurve hash (fromSeed toyCurve []) ⟨.agreementSelector, [2]⟩) = .ok c' ∧
    c.vrfOut = c'.vrfOut ∧ credEq c c' = true := by
  obtain ⟨c, h, _⟩ := toyCredentialFor hash proto ⟨.agreementSelector, [1]⟩
  obtain ⟨c', h', _⟩ := toyCredentialFor hash proto ⟨.agreementSelector, [2]⟩
  exact ⟨c, c', h, h', (C55_same_in_every_round toyCurve greedy hash proto hd (memberFor ⟨.agreementSelector, [1]⟩)
    (memberFor ⟨.agreementSelector, [2]⟩) _ _ c c' rfl rfl rfl rfl h h').1,
    C55_equal_in_every_round toyCurve greedy hash proto hd (memberFor ⟨.agreementSelector, [1]⟩)
    (memberFor ⟨.agreementSelector, [2]⟩) _ _ c c' rfl rfl rfl rfl h h'⟩

/-- A case of `C55_output_hashed_partial`: without domain separation the output of the proof is hashed. -/
example (hash : Bytes → Bytes) (proto : Params) (hd : proto.credentialDomainSeparationEnabled = false) : ∃ (c : Credential) (out : Bytes),
    c.vrfOut = hash (out ++ List.replicate 32 1) := by
  obtain ⟨c, h, _⟩ := toyCredentialFor hash proto ⟨.agreementSelector, [1]⟩
  obtain ⟨out, _, _, _, h1, _⟩ := C55_output_hashed_partial _ _ _ toyCurve_good.sha_len proto hd _ _ _ _ c c h h
  exact ⟨c, out, h1⟩

/-- Arithmetic in which no draw takes a seat. -/
def stingy : Floats Unit := { greedy with ge := fun _ _ => true }

/-- A case of `C55_excluded_forever`: an account excluded for one selector is excluded for another. -/
example (hash : Bytes → Bytes) (proto : Params) (hd : proto.credentialDomainSeparationEnabled = true) :
    verify toyCurve stingy hash proto (memberFor ⟨.agreementSelector, [2]⟩)
      (newCredential toyCurve hash (fromSeed toyCurve []) ⟨.agreementSelector, [2]⟩) = .err .zeroWeight := by
  obtain ⟨h, w, hw, hc⟩ := C58_own_credential toyCurve toyCurve_good stingy hash proto
    (memberFor ⟨.agreementSelector, [1]⟩) [] rfl rfl (show 0 < 105 by decide) (show 105 ≤ 1000 by decide)
    ⟨show 0 < 20 by decide, show 20 ≤ 1000 by decide⟩ (fun _ => rfl)
  have : w = 0 := by
    by_contra hne
    exact absurd ((C57_least_count stingy _ _ _ _ _ hw).2.1 0 (Nat.pos_of_ne_zero hne)) (by simp [stingy])
  subst this
  rcases hc with ⟨_, hz⟩ | ⟨h0, _⟩
  · obtain ⟨c, h', _⟩ := toyCredentialFor hash proto ⟨.agreementSelector, [2]⟩
    obtain ⟨out, hout⟩ := (C58_accepted _ _ _ _ _ _ _ h').1
    exact C55_excluded_forever toyCurve stingy hash proto hd (memberFor ⟨.agreementSelector, [1]⟩)
      (memberFor ⟨.agreementSelector, [2]⟩) _ _ out rfl rfl rfl rfl hz hout
  · simp at h0

/-- A case of `C56_minimum_partial` and `C89_digest`: three units. -/
example : ∃ r c' d c'', lowestOutput (fun _ => List.replicate 32 4) (toyCredential 3) = .ok (r, c') ∧
    lowestOutputDigest (fun _ => List.replicate 32 4) (toyCredential 3) = .ok (d, c'') ∧ ofBE d = r ∧
    r ≤ unitNumber (fun _ => List.replicate 32 4) (toyCredential 3) 2 := by
  have hc : Consistent (toyCredential 3) := fun _ => ⟨_, rfl⟩
  obtain ⟨n, c', d, c'', h1, h2, _, h3, _⟩ := C89_digest (fun _ => List.replicate 32 4) (by simp) (toyCredential 3) hc
  obtain ⟨r, c2, h4, _, h5⟩ := C56_minimum_partial (fun _ => List.replicate 32 4) (toyCredential 3) hc (by decide)
  rw [h1] at h4
  injection h4 with h4
  injection h4 with h4
  subst h4
  exact ⟨n, c', d, c'', h1, h2, h3, h5 2 (by decide) (by decide)⟩

/-- A case of `C56_weight_one_empty` and `C56_weight_one_wins`: one unit against three, where no digest is zero. -/
example : lowestOutput (fun _ => List.replicate 32 4) (toyCredential 1) = .ok (0, toyCredential 1) ∧
    ∃ b', lt (fun _ => List.replicate 32 4) (toyCredential 1) (toyCredential 3) = .ok (true, toyCredential 1, b') := by
  refine ⟨C56_weight_one_empty _ _ rfl, C56_weight_one_wins _ _ _ rfl (by decide) (fun _ => ⟨_, rfl⟩) fun i => ?_⟩
  show ofBE (List.replicate 32 4) ≠ 0
  decide +kernel

/-- A case of `C55_equal_partial`: where digests are the strings themselves, equal credentials without domain separation have
one output. -/
example (proto : Params) (hd : proto.credentialDomainSeparationEnabled = false) : ∃ c c' out,
    verify toyCurve greedy id proto (memberFor ⟨.agreementSelector, [1]⟩)
      (newCredential toyCurve id (fromSeed toyCurve []) ⟨.agreementSelector, [1]⟩) = .ok c ∧
    verify toyCurve greedy id proto (memberFor ⟨.agreementSelector, [2]⟩)
      (newCredential toyCurve id (fromSeed toyCurve []) ⟨.agreementSelector, [2]⟩) = .ok c' ∧
    (credEq c c' = true → c'.vrfOut = out ++ List.replicate 32 1) := by
  obtain ⟨c, h, _⟩ := toyCredentialFor id proto ⟨.agreementSelector, [1]⟩
  obtain ⟨c', h', _⟩ := toyCredentialFor id proto ⟨.agreementSelector, [2]⟩
  obtain ⟨out, out', _, hv', _, h2⟩ := C55_equal_partial toyCurve greedy id toyCurve_good.sha_len proto
    (memberFor ⟨.agreementSelector, [1]⟩) (memberFor ⟨.agreementSelector, [2]⟩) rfl rfl _ _ c c' h h'
  obtain ⟨_, o2, _, ho2, _, e2, _⟩ := C55_output_hashed_partial _ _ _ toyCurve_good.sha_len proto hd _ _ _ _ c c' h h'
  refine ⟨c, c', out, h, h', fun he => ?_⟩
  rw [ho2, Res.ok.injEq] at hv'
  rcases h2 he with ⟨_, h3⟩ | ⟨h3, h4⟩
  · rw [h3 hd, ← hv']; exact e2
  · exact absurd h4 h3

end Verif.Props
