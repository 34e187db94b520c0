import Mathlib.Data.Nat.Choose.Sum
import Mathlib.Algebra.Order.Field.Rat
import Mathlib.Tactic.Linarith
import Mathlib.Tactic.Ring
/-!
# The cumulative binomial distribution over the rationals
-/

namespace Verif.Binomial
open Finset

/-- The probability of at most `i` successes in `n` trials. -/
def cdf (p : ℚ) (n i : Nat) : ℚ := ∑ j ∈ range (i + 1), (n.choose j : ℚ) * p ^ j * (1 - p) ^ (n - j)

variable {p q : ℚ}

theorem term_nonneg (h0 : 0 ≤ p) (h1 : p ≤ 1) (n j : Nat) : 0 ≤ (n.choose j : ℚ) * p ^ j * (1 - p) ^ (n - j) :=
  mul_nonneg (mul_nonneg (Nat.cast_nonneg _) (pow_nonneg h0 _)) (pow_nonneg (by linarith) _)

theorem cdf_nonneg (h0 : 0 ≤ p) (h1 : p ≤ 1) (n i : Nat) : 0 ≤ cdf p n i :=
  sum_nonneg fun j _ => term_nonneg h0 h1 n j

theorem cdf_step (h0 : 0 ≤ p) (h1 : p ≤ 1) (n i : Nat) : cdf p n i ≤ cdf p n (i + 1) := by
  rw [cdf, cdf, sum_range_succ _ (i + 1)]
  linarith [term_nonneg h0 h1 n (i + 1)]

theorem cdf_mono (h0 : 0 ≤ p) (h1 : p ≤ 1) (n : Nat) {i j : Nat} (h : i ≤ j) : cdf p n i ≤ cdf p n j := by
  induction h with
  | refl => exact le_refl _
  | step _ ih => exact le_trans ih (cdf_step h0 h1 n _)

theorem cdf_full (p : ℚ) (n : Nat) : cdf p n n = 1 := by
  have := add_pow p (1 - p) n
  rw [add_sub_cancel, one_pow] at this
  refine Eq.trans (sum_congr rfl fun j _ => ?_) this.symm
  ring

theorem cdf_le_one (h0 : 0 ≤ p) (h1 : p ≤ 1) (n i : Nat) : cdf p n i ≤ 1 := by
  rcases Nat.le_total i n with h | h
  · rw [← cdf_full p n]; exact cdf_mono h0 h1 n h
  · rw [cdf, ← sum_subset (range_mono (show n + 1 ≤ i + 1 by omega))]
    · exact le_of_eq (cdf_full p n)
    · intro j _ hj
      have : n < j := by simpa using hj
      rw [Nat.choose_eq_zero_of_lt this]; simp

theorem cdf_zero_succ (p : ℚ) (n : Nat) : cdf p (n + 1) 0 = (1 - p) * cdf p n 0 := by
  simp [cdf, pow_succ]; ring

theorem cdf_succ_succ (p : ℚ) (n i : Nat) : cdf p (n + 1) (i + 1) = (1 - p) * cdf p n (i + 1) + p * cdf p n i := by
  rw [cdf, sum_range_succ', cdf, sum_range_succ' _ (i + 1), cdf, mul_add, mul_sum, mul_sum]
  have h1 : ∀ j : Nat, ((n + 1).choose (j + 1) : ℚ) * p ^ (j + 1) * (1 - p) ^ (n + 1 - (j + 1)) =
      (1 - p) * ((n.choose (j + 1) : ℚ) * p ^ (j + 1) * (1 - p) ^ (n - (j + 1))) +
      p * ((n.choose j : ℚ) * p ^ j * (1 - p) ^ (n - j)) := by
    intro j
    rw [Nat.choose_succ_succ, Nat.cast_add, Nat.succ_sub_succ]
    rcases Nat.lt_or_ge j n with h | h
    · have : n - j = (n - (j + 1)) + 1 := by omega
      rw [this, pow_succ, pow_succ]; ring
    · rw [Nat.choose_eq_zero_of_lt (show n < j + 1 by omega)]
      rw [pow_succ]; push_cast; ring
  rw [sum_congr rfl fun j _ => h1 j, sum_add_distrib]
  simp [pow_succ]; ring

/-- More trials, fewer chances of few successes. -/
theorem cdf_trials_step (h0 : 0 ≤ p) (h1 : p ≤ 1) (n i : Nat) : cdf p (n + 1) i ≤ cdf p n i := by
  cases i with
  | zero =>
    rw [cdf_zero_succ]
    nlinarith [cdf_nonneg h0 h1 n 0]
  | succ i =>
    rw [cdf_succ_succ]
    nlinarith [cdf_step h0 h1 n i]

theorem cdf_trials (h0 : 0 ≤ p) (h1 : p ≤ 1) {n m : Nat} (h : n ≤ m) (i : Nat) : cdf p m i ≤ cdf p n i := by
  induction h with
  | refl => exact le_refl _
  | step _ ih => exact le_trans (cdf_trials_step h0 h1 _ i) ih

/-- More probable trials, fewer chances of few successes. -/
theorem cdf_prob (h0 : 0 ≤ p) (hpq : p ≤ q) (h1 : q ≤ 1) (n i : Nat) : cdf q n i ≤ cdf p n i := by
  induction n generalizing i with
  | zero =>
    have : ∀ r : ℚ, cdf r 0 i = 1 := by
      intro r
      rw [cdf, sum_range_succ']
      simp
    rw [this, this]
  | succ n ih =>
    have hp1 : p ≤ 1 := le_trans hpq h1
    cases i with
    | zero =>
      rw [cdf_zero_succ, cdf_zero_succ]
      have := ih 0
      have hn := cdf_nonneg h0 hp1 n 0
      have hq : 0 ≤ 1 - q := by linarith
      nlinarith [mul_le_mul_of_nonneg_left this hq]
    | succ i =>
      rw [cdf_succ_succ, cdf_succ_succ]
      have a := ih (i + 1)
      have b := ih i
      have c := cdf_step h0 hp1 n i
      have hq : 0 ≤ 1 - q := by linarith
      have hq0 : 0 ≤ q := le_trans h0 hpq
      nlinarith [mul_le_mul_of_nonneg_left a hq, mul_le_mul_of_nonneg_left b hq0,
        mul_nonneg (sub_nonneg.2 hpq) (sub_nonneg.2 c)]

end Verif.Binomial
