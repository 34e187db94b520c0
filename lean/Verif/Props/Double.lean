import Mathlib.Tactic.Linarith
import Mathlib.Tactic.FieldSimp
import Mathlib.Tactic.Positivity
import Verif.Model.Double
import Verif.Model.Algokey
import Verif.Props.Committee
/-!
# C182: the sortition in double precision
-/

namespace Verif.Props
open Verif Verif.Committee Verif.Double Verif.Codec Verif.Msgpack Verif.Vrf Verif.Consensus Verif.Balance Verif.HashId

/-! ## Rounding to whole numbers -/

theorem floor_le_roundEven (x : ℚ) : ⌊x⌋ ≤ roundEven x := by
  unfold roundEven; split_ifs <;> omega

theorem roundEven_le_floor (x : ℚ) : roundEven x ≤ ⌊x⌋ + 1 := by
  unfold roundEven; split_ifs <;> omega

theorem roundEven_int (z : ℤ) : roundEven (z : ℚ) = z := by
  simp [roundEven]

theorem roundEven_mono {x y : ℚ} (h : x ≤ y) : roundEven x ≤ roundEven y := by
  by_cases hf : ⌊x⌋ = ⌊y⌋
  · unfold roundEven
    rw [hf]
    split_ifs <;> first | omega | (exfalso; linarith)
  · have h1 := Int.floor_le_floor h
    have h2 := roundEven_le_floor x
    have h3 := floor_le_roundEven y
    omega

/-- No whole number is nearer. -/
theorem roundEven_nearest (x : ℚ) (z : ℤ) : |(roundEven x : ℚ) - x| ≤ |(z : ℚ) - x| := by
  have f1 := Int.floor_le x
  have f2 := Int.lt_floor_add_one x
  have hz : (z : ℚ) ≤ ⌊x⌋ ∨ ((⌊x⌋ : ℚ) + 1 ≤ z) := by
    rcases lt_or_ge ⌊x⌋ z with h | h
    · right; exact_mod_cast h
    · left; exact_mod_cast h
  have hd : min (x - ⌊x⌋) (⌊x⌋ + 1 - x) ≤ |(z : ℚ) - x| := by
    rcases hz with h | h
    · exact le_trans (min_le_left _ _) (by rw [abs_sub_comm]; exact le_trans (by linarith) (le_abs_self _))
    · exact le_trans (min_le_right _ _) (le_trans (by linarith) (le_abs_self _))
  refine le_trans ?_ hd
  unfold roundEven
  split_ifs with a b c
  · rw [abs_sub_comm, abs_of_nonneg (by linarith)]
    exact le_min (le_refl _) (by linarith)
  · push_cast
    rw [abs_of_nonneg (by linarith)]
    exact le_min (by linarith) (le_refl _)
  · rw [abs_sub_comm, abs_of_nonneg (by linarith)]
    exact le_min (le_refl _) (by linarith)
  · push_cast
    rw [abs_of_nonneg (by linarith)]
    exact le_min (by linarith) (le_refl _)

theorem roundEven_error (x : ℚ) : |(roundEven x : ℚ) - x| ≤ 1 / 2 := by
  have f1 := Int.floor_le x
  have f2 := Int.lt_floor_add_one x
  by_cases h : x - ⌊x⌋ ≤ 1 / 2
  · exact le_trans (roundEven_nearest x ⌊x⌋) (by rw [abs_sub_comm, abs_of_nonneg (by linarith)]; exact h)
  · have := roundEven_nearest x (⌊x⌋ + 1)
    push_cast at this
    exact le_trans this (by rw [abs_of_nonneg (by linarith)]; linarith)

/-! ## Rounding to doubles -/

/-- A number with at most 53 significant bits. -/
def IsDouble (x : ℚ) : Prop := ∃ m e : ℤ, |m| < 2 ^ 53 ∧ x = m * 2 ^ e

theorem ulp_pos (q : ℚ) : 0 < ulp q := zpow_pos (by norm_num) _

theorem binade {q : ℚ} (h : 0 < q) : 2 ^ 52 * ulp q ≤ q ∧ q < 2 ^ 53 * ulp q := by
  have h1 := Int.zpow_log_le_self (b := 2) (by norm_num) h
  have h2 := Int.lt_zpow_succ_log_self (b := 2) (by norm_num) q
  have e1 : (2 : ℚ) ^ 52 * ulp q = 2 ^ Int.log 2 q := by
    rw [ulp, ← zpow_natCast, ← zpow_add₀ (by norm_num)]
    congr 1; push_cast; ring
  have e2 : (2 : ℚ) ^ 53 * ulp q = 2 ^ (Int.log 2 q + 1) := by
    rw [ulp, ← zpow_natCast, ← zpow_add₀ (by norm_num)]
    congr 1; push_cast; ring
  rw [e1, e2]
  push_cast at h1 h2
  exact ⟨h1, h2⟩

/-- The significand before rounding. -/
theorem sig_bounds {q : ℚ} (h : 0 < q) : 2 ^ 52 ≤ q / ulp q ∧ q / ulp q < 2 ^ 53 := by
  obtain ⟨h1, h2⟩ := binade h
  have := ulp_pos q
  exact ⟨by rw [le_div_iff₀ this]; exact h1, by rw [div_lt_iff₀ this]; exact h2⟩

theorem sig_round {q : ℚ} (h : 0 < q) : 2 ^ 52 ≤ roundEven (q / ulp q) ∧ roundEven (q / ulp q) ≤ 2 ^ 53 := by
  obtain ⟨h1, h2⟩ := sig_bounds h
  have a := roundEven_mono (x := ((2 ^ 52 : ℤ) : ℚ)) (y := q / ulp q) (by push_cast; exact h1)
  have b := roundEven_mono (x := q / ulp q) (y := ((2 ^ 53 : ℤ) : ℚ)) (by push_cast; exact h2.le)
  rw [roundEven_int] at a b
  exact ⟨a, b⟩

theorem rnd_zero : rnd 0 = 0 := by
  have : roundEven 0 = 0 := by simpa using roundEven_int 0
  simp [rnd, this]

theorem rnd_binade {q : ℚ} (h : 0 < q) : 2 ^ 52 * ulp q ≤ rnd q ∧ rnd q ≤ 2 ^ 53 * ulp q := by
  obtain ⟨h1, h2⟩ := sig_round h
  have := ulp_pos q
  unfold rnd
  constructor
  · exact mul_le_mul_of_nonneg_right (by exact_mod_cast h1) this.le
  · exact mul_le_mul_of_nonneg_right (by exact_mod_cast h2) this.le

theorem rnd_pos {q : ℚ} (h : 0 < q) : 0 < rnd q := by
  have := (rnd_binade h).1
  have := ulp_pos q
  linarith

theorem rnd_nonneg {q : ℚ} (h : 0 ≤ q) : 0 ≤ rnd q := by
  rcases h.eq_or_lt with rfl | h
  · rw [rnd_zero]
  · exact (rnd_pos h).le

/-- Distances of doubles are equal or grow by a power of two. -/
theorem ulp_cases {q r : ℚ} (h : 0 < q) (hle : q ≤ r) : ∃ k : ℕ, ulp r = 2 ^ k * ulp q := by
  have hl : Int.log 2 q ≤ Int.log 2 r := Int.log_mono_right h hle
  refine ⟨(Int.log 2 r - Int.log 2 q).toNat, ?_⟩
  rw [ulp, ulp, ← zpow_natCast, ← zpow_add₀ (by norm_num)]
  congr 1
  rw [Int.toNat_of_nonneg (by omega)]
  ring

theorem rnd_mono {q r : ℚ} (h : 0 ≤ q) (hle : q ≤ r) : rnd q ≤ rnd r := by
  rcases h.eq_or_lt with rfl | h
  · rw [rnd_zero]; exact rnd_nonneg hle
  · obtain ⟨k, hk⟩ := ulp_cases h hle
    have hu := ulp_pos q
    cases k with
    | zero =>
      have : ulp r = ulp q := by simpa using hk
      unfold rnd
      rw [this]
      refine mul_le_mul_of_nonneg_right ?_ hu.le
      exact_mod_cast roundEven_mono (div_le_div_of_nonneg_right hle hu.le)
    | succ k =>
      have h1 := (rnd_binade h).2
      have h2 := (rnd_binade (lt_of_lt_of_le h hle)).1
      have h3 : (1 : ℚ) ≤ 2 ^ k := one_le_pow₀ (by norm_num)
      rw [hk, pow_succ (2 : ℚ) k] at h2
      have : ulp q ≤ 2 ^ k * ulp q := by nlinarith
      linarith

theorem rnd_error {q : ℚ} (h : 0 ≤ q) : |rnd q - q| ≤ q / 2 ^ 53 := by
  rcases h.eq_or_lt with rfl | h
  · simp [rnd_zero]
  · have hu := ulp_pos q
    have e : rnd q - q = (roundEven (q / ulp q) - q / ulp q) * ulp q := by
      unfold rnd; field_simp
    rw [e, abs_mul, abs_of_pos hu]
    have h1 := roundEven_error (q / ulp q)
    have h2 := (binade h).1
    have : |(roundEven (q / ulp q) : ℚ) - q / ulp q| * ulp q ≤ 1 / 2 * ulp q := mul_le_mul_of_nonneg_right h1 hu.le
    rw [le_div_iff₀ (by norm_num)]
    nlinarith

theorem rnd_double {q : ℚ} (h : 0 ≤ q) : IsDouble (rnd q) := by
  rcases h.eq_or_lt with rfl | h
  · exact ⟨0, 0, by norm_num, by simp [rnd_zero]⟩
  · obtain ⟨h1, h2⟩ := sig_round h
    rcases h2.eq_or_lt with h2 | h2
    · refine ⟨1, 53 + (Int.log 2 q - 52), by norm_num, ?_⟩
      rw [rnd, h2, ulp, zpow_add₀ (by norm_num)]
      push_cast
      norm_num
    · exact ⟨roundEven (q / ulp q), Int.log 2 q - 52, by rw [abs_of_nonneg (by omega)]; exact h2, rfl⟩

/-- A double in the binade of a number or above is a multiple of the distance there. -/
theorem double_multiple {q d : ℚ} (hd : IsDouble d) (hge : 2 ^ 52 * ulp q ≤ d) : ∃ z : ℤ, d = z * ulp q := by
  obtain ⟨m, e, hm, rfl⟩ := hd
  have hm0 : (m : ℚ) < 2 ^ 53 := by
    have := lt_of_le_of_lt (le_abs_self m) hm
    exact_mod_cast this
  by_cases he : Int.log 2 q - 52 ≤ e
  · refine ⟨m * 2 ^ (e - (Int.log 2 q - 52)).toNat, ?_⟩
    rw [ulp]
    push_cast
    rw [← zpow_natCast, Int.toNat_of_nonneg (by omega), mul_assoc, ← zpow_add₀ (by norm_num)]
    congr 2; ring
  · exfalso
    have h1 : (2 : ℚ) ^ (e + 1) ≤ ulp q := zpow_le_zpow_right₀ (by norm_num) (by omega)
    have h2 : (2 : ℚ) ^ (e + 1) = 2 * 2 ^ e := by rw [zpow_add₀ (by norm_num)]; ring
    have h3 : (0 : ℚ) < 2 ^ e := zpow_pos (by norm_num) _
    rw [h2] at h1
    nlinarith

/-- **C182** (the rounding): the result is a double, and no double is nearer. -/
theorem C182_nearest {q : ℚ} (h : 0 ≤ q) : IsDouble (rnd q) ∧ ∀ d, IsDouble d → |rnd q - q| ≤ |d - q| := by
  refine ⟨rnd_double h, ?_⟩
  rcases h.eq_or_lt with rfl | h
  · intro d _; simp [rnd_zero]
  intro d hd
  have hu := ulp_pos q
  have key : ∀ z : ℤ, |rnd q - q| ≤ |z * ulp q - q| := by
    intro z
    have e : rnd q - q = (roundEven (q / ulp q) - q / ulp q) * ulp q := by unfold rnd; field_simp
    have e' : z * ulp q - q = (z - q / ulp q) * ulp q := by field_simp
    rw [e, e', abs_mul, abs_mul]
    exact mul_le_mul_of_nonneg_right (roundEven_nearest _ _) (abs_nonneg _)
  by_cases hge : 2 ^ 52 * ulp q ≤ d
  · obtain ⟨z, rfl⟩ := double_multiple hd hge
    exact key z
  · have := key (2 ^ 52)
    push_cast at this
    refine le_trans this ?_
    have hb := (binade h).1
    rw [abs_sub_comm, abs_of_nonneg (by linarith), abs_sub_comm d, abs_of_nonneg (by linarith)]
    linarith

theorem roundEven_tie {x : ℚ} {z : ℤ} (hz : z ≠ roundEven x) (h : |(z : ℚ) - x| = |(roundEven x : ℚ) - x|) :
    roundEven x % 2 = 0 := by
  have f1 := Int.floor_le x
  have f2 := Int.lt_floor_add_one x
  have far : ∀ y : ℤ, y ≠ ⌊x⌋ → y ≠ ⌊x⌋ + 1 → 1 / 2 < |(y : ℚ) - x| := by
    intro y h1 h2
    rcases lt_or_ge y ⌊x⌋ with hy | hy
    · have : (y : ℚ) + 1 ≤ ⌊x⌋ := by exact_mod_cast hy
      rw [abs_sub_comm]
      exact lt_of_lt_of_le (by linarith) (le_abs_self _)
    · have : (⌊x⌋ : ℚ) + 2 ≤ y := by exact_mod_cast (by omega : ⌊x⌋ + 2 ≤ y)
      exact lt_of_lt_of_le (by linarith) (le_abs_self _)
  have he := roundEven_error x
  have hz' : z = ⌊x⌋ ∨ z = ⌊x⌋ + 1 := by
    by_contra hc
    simp only [not_or] at hc
    have := far z hc.1 hc.2
    linarith
  have a0 : |(⌊x⌋ : ℚ) - x| = x - ⌊x⌋ := by rw [abs_sub_comm, abs_of_nonneg (by linarith)]
  have a1 : |((⌊x⌋ + 1 : ℤ) : ℚ) - x| = ⌊x⌋ + 1 - x := by push_cast; rw [abs_of_nonneg (by linarith)]
  unfold roundEven at hz h ⊢
  split_ifs at hz h ⊢ with c1 c2 c3
  · rcases hz' with rfl | rfl
    · exact absurd rfl hz
    · rw [a0, a1] at h; linarith
  · rcases hz' with rfl | rfl
    · rw [a0, a1] at h; linarith
    · exact absurd rfl hz
  · exact c3
  · omega

/-- **C182** (the rounding): of two doubles that are equally near, the one whose last bit is zero is taken. -/
theorem C182_ties {q d : ℚ} (h : 0 < q) (hd : IsDouble d) (hne : d ≠ rnd q) (heq : |d - q| = |rnd q - q|) :
    ∃ m e : ℤ, |m| < 2 ^ 52 ∧ rnd q = m * 2 ^ e := by
  have hu := ulp_pos q
  have e : rnd q - q = (roundEven (q / ulp q) - q / ulp q) * ulp q := by unfold rnd; field_simp
  have hge : 2 ^ 52 * ulp q ≤ d := by
    by_contra hc
    have hd' : IsDouble (2 ^ 52 * ulp q) := ⟨2 ^ 51, Int.log 2 q - 52 + 1, by norm_num, by
      rw [ulp, zpow_add₀ (by norm_num) _ 1]; push_cast; ring⟩
    have := (C182_nearest h.le).2 _ hd'
    have hb := (binade h).1
    rw [← heq, abs_sub_comm, abs_of_nonneg (by linarith), abs_sub_comm, abs_of_nonneg (by linarith)] at this
    linarith
  obtain ⟨z, rfl⟩ := double_multiple hd hge
  have e' : z * ulp q - q = (z - q / ulp q) * ulp q := by field_simp
  rw [e, e', abs_mul, abs_mul] at heq
  have heq := mul_right_cancel₀ (abs_pos.2 hu.ne').ne' heq
  have heven := roundEven_tie (fun hz => hne (by rw [hz]; rfl)) heq
  obtain ⟨s1, s2⟩ := sig_round h
  rcases s2.eq_or_lt with s2 | s2
  · refine ⟨1, 53 + (Int.log 2 q - 52), by norm_num, ?_⟩
    rw [rnd, s2, ulp, zpow_add₀ (by norm_num)]
    push_cast
    norm_num
  · refine ⟨roundEven (q / ulp q) / 2, 1 + (Int.log 2 q - 52), by rw [abs_of_nonneg (by omega)]; omega, ?_⟩
    have hz : roundEven (q / ulp q) = roundEven (q / ulp q) / 2 * 2 := by omega
    rw [rnd, zpow_add₀ (by norm_num), ← ulp]
    conv_lhs => rw [hz]
    push_cast
    ring

/-- Whole numbers up to 2^53 are doubles. -/
theorem rnd_small {n : ℕ} (h : n ≤ 2 ^ 53) : rnd n = n := by
  have hd : IsDouble (n : ℚ) := by
    rcases Nat.lt_or_ge n (2 ^ 53) with h | h'
    · exact ⟨n, 0, by rw [abs_of_nonneg (by omega)]; exact_mod_cast h, by simp⟩
    · have : n = 2 ^ 53 := by omega
      subst this
      exact ⟨1, 53, by norm_num, by norm_num⟩
  have := (C182_nearest (q := n) (Nat.cast_nonneg _)).2 n hd
  simp only [sub_self, abs_zero] at this
  have := abs_nonpos_iff.1 this
  linarith

theorem rnd_one : rnd 1 = 1 := by simpa using rnd_small (n := 1) (by norm_num)

theorem roundEven_div (n d : ℕ) (hd : 0 < d) : roundEven ((n : ℚ) / d) =
    ((if 2 * (n % d) > d ∨ (2 * (n % d) = d ∧ n / d % 2 = 1) then n / d + 1 else n / d : ℕ) : ℤ) := by
  have hdq : (0 : ℚ) < d := by exact_mod_cast hd
  have hn : (n : ℚ) = d * (n / d : ℕ) + (n % d : ℕ) := by exact_mod_cast (Nat.div_add_mod n d).symm
  have hx : (n : ℚ) / d = (n / d : ℕ) + (n % d : ℕ) / d := by
    rw [div_eq_iff hdq.ne', add_mul, div_mul_cancel₀ _ hdq.ne', mul_comm]; exact hn
  have hm : ((n % d : ℕ) : ℚ) < d := by exact_mod_cast Nat.mod_lt n hd
  have hf : ⌊(n : ℚ) / d⌋ = ((n / d : ℕ) : ℤ) := by
    rw [Int.floor_eq_iff, hx]
    constructor
    · have : (0 : ℚ) ≤ ((n % d : ℕ) : ℚ) / d := div_nonneg (Nat.cast_nonneg _) hdq.le
      rw [Int.cast_natCast]
      linarith
    · have : ((n % d : ℕ) : ℚ) / d < 1 := (div_lt_one hdq).2 hm
      rw [Int.cast_natCast]
      linarith
  have hfr : (n : ℚ) / d - ((n / d : ℕ) : ℤ) = (n % d : ℕ) / d := by rw [hx, Int.cast_natCast]; ring
  unfold roundEven
  rw [hf, hfr]
  have c1 : ((n % d : ℕ) : ℚ) / d < 1 / 2 ↔ 2 * (n % d) < d := by
    rw [div_lt_div_iff₀ hdq (by norm_num)]
    constructor
    · intro h; have : ((n % d : ℕ) * 2 : ℚ) < d := by linarith
      have : (n % d) * 2 < d := by exact_mod_cast this
      omega
    · intro h; have : ((n % d : ℕ) * 2 : ℚ) < d := by exact_mod_cast (by omega : (n % d) * 2 < d)
      linarith
  have c2 : 1 / 2 < ((n % d : ℕ) : ℚ) / d ↔ d < 2 * (n % d) := by
    rw [div_lt_div_iff₀ (by norm_num) hdq]
    constructor
    · intro h; have : (d : ℚ) < ((n % d : ℕ) * 2 : ℚ) := by linarith
      have : d < (n % d) * 2 := by exact_mod_cast this
      omega
    · intro h; have : (d : ℚ) < ((n % d : ℕ) * 2 : ℚ) := by exact_mod_cast (by omega : d < (n % d) * 2)
      linarith
  simp only [c1, c2]
  generalize n % d = r
  generalize n / d = t
  by_cases h1 : 2 * r < d
  · rw [if_pos h1, if_neg (by omega)]
  · rw [if_neg h1]
    by_cases h2 : d < 2 * r
    · rw [if_pos h2, if_pos (by omega)]; push_cast; ring
    · rw [if_neg h2]
      by_cases h3 : t % 2 = 0
      · rw [if_pos (by omega), if_neg (by omega)]
      · rw [if_neg (by omega), if_pos (by omega)]; push_cast; ring

/-- **C182**: the conversion of whole numbers in the model of `algokey` is this rounding. -/
theorem C182_conversion (n : ℕ) : (Algokey.f64OfU64 n : ℚ) = rnd n := by
  unfold Algokey.f64OfU64
  split
  · rename_i h; rw [rnd_small h.le]
  · rename_i h
    have hn : n ≠ 0 := by omega
    have hlog : 53 ≤ Nat.log2 n := (Nat.le_log2 hn).2 (by omega)
    have hu : ulp (n : ℚ) = ((2 ^ (Nat.log2 n - 52) : ℕ) : ℚ) := by
      rw [ulp, Int.log_natCast, ← Nat.log2_eq_log_two, Nat.cast_pow, ← zpow_natCast, Nat.cast_sub (by omega)]
      norm_num
    rw [rnd, hu, roundEven_div n _ (by positivity)]
    simp only
    split <;> push_cast <;> rfl

/-! ## The probability -/

/-- A quotient of two different doubles that come from rounding does not round to one. -/
theorem quotient_above {q r : ℚ} (h : 0 < q) (hr : 0 ≤ r) (hlt : rnd q < rnd r) : 1 + 1 / 2 ^ 53 < rnd r / rnd q := by
  have hqr : q ≤ r := by
    by_contra hc
    have := rnd_mono hr (not_le.1 hc).le
    linarith
  have hu := ulp_pos q
  obtain ⟨k, hk⟩ := ulp_cases h hqr
  obtain ⟨q1, q2⟩ := sig_round h
  obtain ⟨r1, r2⟩ := sig_round (lt_of_lt_of_le h hqr)
  have eq : rnd q = (roundEven (q / ulp q) : ℤ) * ulp q := rfl
  have er : rnd r = ((roundEven (r / ulp r) * 2 ^ k : ℤ) : ℚ) * ulp q := by rw [rnd, hk]; push_cast; ring
  generalize roundEven (q / ulp q) = Q at *
  generalize roundEven (r / ulp r) = R at *
  rw [eq, er] at hlt ⊢
  have hlt' : Q < R * 2 ^ k := by exact_mod_cast lt_of_mul_lt_mul_right hlt hu.le
  have hQ : (0 : ℚ) < Q := by exact_mod_cast (by omega : 0 < Q)
  rw [mul_div_mul_right _ _ hu.ne', lt_div_iff₀ hQ]
  have goal : Q * 2 ^ 53 + Q < R * 2 ^ k * 2 ^ 53 := by
    by_cases hq : Q < 2 ^ 53
    · omega
    · have hq : Q = 2 ^ 53 := by omega
      cases k with
      | zero => simp at hlt'; omega
      | succ k =>
        have e : R * 2 ^ (k + 1) = 2 * (R * 2 ^ k) := by ring
        rw [e] at hlt' ⊢
        generalize R * 2 ^ k = S at *
        omega
  have goal' : (Q : ℚ) * 2 ^ 53 + Q < ((R * 2 ^ k : ℤ) : ℚ) * 2 ^ 53 := by exact_mod_cast goal
  generalize ((R * 2 ^ k : ℤ) : ℚ) = S at *
  linarith

theorem rnd_above {x : ℚ} (h : 1 + 1 / 2 ^ 53 < x) : 1 < rnd x := by
  have hd : IsDouble (1 + 1 / 2 ^ 52) := ⟨2 ^ 52 + 1, -52, by norm_num, by norm_num⟩
  by_contra hc
  have hn := (C182_nearest (q := x) (by linarith)).2 _ hd
  rw [abs_sub_comm, abs_of_nonneg (by linarith)] at hn
  by_cases hx : x ≤ 1 + 1 / 2 ^ 52
  · rw [abs_of_nonneg (by linarith)] at hn
    linarith
  · rw [abs_sub_comm, abs_of_nonneg (by linarith)] at hn
    linarith

theorem isProb_iff (size total : ℕ) :
    isProb (div (ofU64 size) (ofU64 total)) = true ↔ 0 < total ∧ rnd size ≤ rnd total := by
  rcases Nat.eq_zero_or_pos total with rfl | ht
  · simp only [ofU64, div, Nat.cast_zero, rnd_zero, if_true]
    split <;> simp [isProb]
  · have htq : (0 : ℚ) < total := by exact_mod_cast ht
    have hp := rnd_pos htq
    have hs : (0 : ℚ) ≤ size := Nat.cast_nonneg _
    have hs' := rnd_nonneg hs
    simp only [ofU64, div, if_neg hp.ne', isProb, decide_eq_true_eq, ht, true_and]
    constructor
    · rintro ⟨_, h⟩
      by_contra hc
      have := rnd_above (quotient_above htq hs (not_le.1 hc))
      linarith
    · intro h
      refine ⟨rnd_nonneg (div_nonneg hs' hp.le), ?_⟩
      have := rnd_mono (div_nonneg hs' hp.le) ((div_le_one hp).2 h)
      rwa [rnd_one] at this

/-! ## C182 -/

/-- **C182**, exactly: in double precision the sortition crashes if there is no stake at all, or the committee is larger
than the total stake after both are rounded to doubles. -/
theorem C182_crash_iff (cdf : Dbl → Nat → Nat → Dbl) (money total size : ℕ) (out : Bytes) :
    select (doubles cdf) money total (ofU64 size) out = .panic ↔ total = 0 ∨ rnd total < rnd size := by
  rw [C153_panics_iff]
  show isProb (div (ofU64 size) (ofU64 total)) = false ↔ _
  rw [← Bool.not_eq_true, isProb_iff, not_and_or, not_lt, not_le, Nat.le_zero]

/-- **C182**: it never crashes when the committee is not larger than the total stake. -/
theorem C182_returns (cdf : Dbl → Nat → Nat → Dbl) (money total size : ℕ) (out : Bytes) (ht : 0 < total) (h : size ≤ total) :
    ∃ w, select (doubles cdf) money total (ofU64 size) out = .ok w ∧ w ≤ money := by
  cases hs : select (doubles cdf) money total (ofU64 size) out with
  | ok w => exact ⟨w, rfl, (C57_least_count _ _ _ _ _ _ hs).1⟩
  | err e => rw [select, cdfWalk] at hs; split at hs <;> cases hs
  | panic =>
    exfalso
    rcases (C182_crash_iff cdf money total size out).1 hs with h0 | h0
    · omega
    · have := rnd_mono (q := size) (r := total) (Nat.cast_nonneg _) (by exact_mod_cast h)
      linarith

/-- **C182**: it always crashes when the committee is larger than the stake, for numbers up to 2^53. -/
theorem C182_crashes (cdf : Dbl → Nat → Nat → Dbl) (money total size : ℕ) (out : Bytes) (h : total < size)
    (hs : size ≤ 2 ^ 53) : select (doubles cdf) money total (ofU64 size) out = .panic := by
  rw [C182_crash_iff, rnd_small hs, rnd_small (by omega)]
  right; exact_mod_cast h

/-- **C182**: whatever the distribution function computes, a larger draw never means fewer seats. -/
theorem C182_monotone (cdf : Dbl → Nat → Nat → Dbl) (money total size : ℕ) (out out' : Bytes) (w w' : ℕ)
    (hle : ofBE out ≤ ofBE out') (h : select (doubles cdf) money total (ofU64 size) out = .ok w)
    (h' : select (doubles cdf) money total (ofU64 size) out' = .ok w') : w ≤ w' := by
  refine C57_monotone (doubles cdf) money total (ofU64 size) out out' w w' ?_ h h'
  intro x hx
  have hr : rnd ((ofBE out : ℚ) / ((2 ^ 256 - 1 : ℕ) : ℚ)) ≤ rnd ((ofBE out' : ℚ) / ((2 ^ 256 - 1 : ℕ) : ℚ)) :=
    rnd_mono (div_nonneg (Nat.cast_nonneg _) (Nat.cast_nonneg _))
      (div_le_div_of_nonneg_right (by exact_mod_cast hle) (Nat.cast_nonneg _))
  cases x with
  | num a =>
    have hx : decide (rnd ((ofBE out' : ℚ) / ((2 ^ 256 - 1 : ℕ) : ℚ)) ≤ a) = true := hx
    exact decide_eq_true (le_trans hr (of_decide_eq_true hx))
  | inf => rfl
  | nan => cases hx

/-- The distribution function of the library is within `ε` of the binomial distribution. -/
def Accurate (cdf : Dbl → Nat → Nat → Dbl) (ε : ℚ) : Prop :=
  ∀ p n j, IsDouble p → 0 ≤ p → p ≤ 1 → ∃ c, cdf (.num p) n j = .num c ∧ |c - Binomial.cdf p n j| ≤ ε

/-- The distribution function changes by at most the number of trials times the change of the probability. -/
theorem cdf_lipschitz {p p' : ℚ} (h0 : 0 ≤ p) (hle : p ≤ p') (h1 : p' ≤ 1) (n : ℕ) :
    ∀ i, Binomial.cdf p n i - Binomial.cdf p' n i ≤ n * (p' - p) := by
  induction n with
  | zero =>
    intro i
    have a := Binomial.cdf_le_one h0 (hle.trans h1) 0 i
    have b := Binomial.cdf_mono (h0.trans hle) h1 0 (Nat.zero_le i)
    rw [Binomial.cdf_full] at b
    push_cast
    linarith
  | succ n ih =>
    intro i
    have h0' := h0.trans hle
    have h1' := hle.trans h1
    cases i with
    | zero =>
      rw [Binomial.cdf_zero_succ, Binomial.cdf_zero_succ]
      have a := ih 0
      have b := Binomial.cdf_le_one h0' h1 n 0
      have c := mul_le_mul_of_nonneg_left a (by linarith : 0 ≤ 1 - p)
      have c' : (1 - p) * (n * (p' - p)) ≤ n * (p' - p) :=
        mul_le_of_le_one_left (mul_nonneg (Nat.cast_nonneg _) (by linarith)) (by linarith)
      have d := mul_le_mul_of_nonneg_left b (by linarith : 0 ≤ p' - p)
      push_cast
      linarith
    | succ i =>
      rw [Binomial.cdf_succ_succ, Binomial.cdf_succ_succ]
      have a := mul_le_mul_of_nonneg_left (ih (i + 1)) (by linarith : 0 ≤ 1 - p)
      have b := mul_le_mul_of_nonneg_left (ih i) h0
      have c := Binomial.cdf_le_one h0' h1 n (i + 1)
      have c' := Binomial.cdf_nonneg h0' h1 n i
      have d := mul_le_mul_of_nonneg_left (by linarith : Binomial.cdf p' n (i + 1) - Binomial.cdf p' n i ≤ 1)
        (by linarith : 0 ≤ p' - p)
      push_cast
      linarith

/-- The probability is off by at most 2^-51 of itself. -/
theorem prob_error {size total : ℕ} (ht : 0 < total) (hst : size ≤ total) :
    ∃ p, div (ofU64 size) (ofU64 total) = .num p ∧ IsDouble p ∧ 0 ≤ p ∧ p ≤ 1 ∧
      |p - (size : ℚ) / total| ≤ (size : ℚ) / total / 2 ^ 51 := by
  have htq : (0 : ℚ) < total := by exact_mod_cast ht
  have hs : (0 : ℚ) ≤ size := Nat.cast_nonneg _
  have hp := rnd_pos htq
  have hs' := rnd_nonneg hs
  have hq : 0 ≤ rnd size / rnd total := div_nonneg hs' hp.le
  refine ⟨rnd (rnd size / rnd total), by simp only [ofU64, div, if_neg hp.ne'], rnd_double hq, rnd_nonneg hq, ?_, ?_⟩
  · have := rnd_mono hq ((div_le_one hp).2 (rnd_mono hs (by exact_mod_cast hst)))
    rwa [rnd_one] at this
  · obtain ⟨t1, t2⟩ := abs_le.1 (rnd_error htq.le)
    obtain ⟨s1, s2⟩ := abs_le.1 (rnd_error hs)
    obtain ⟨d1, d2⟩ := abs_le.1 (rnd_error hq)
    generalize rnd (rnd (size : ℚ) / rnd total) = p at *
    have hx : rnd (size : ℚ) / rnd total * rnd total = rnd size := div_mul_cancel₀ _ hp.ne'
    have hy : (size : ℚ) / total * total = size := div_mul_cancel₀ _ htq.ne'
    have hy0 : 0 ≤ (size : ℚ) / total := div_nonneg hs htq.le
    generalize rnd (size : ℚ) / rnd total = x at *
    generalize (size : ℚ) / total = y at *
    have hup : x ≤ y * (1 + 5 / 2 ^ 54) := by
      by_contra hc
      have hc := not_le.1 hc
      have g1 : y * (1 + 5 / 2 ^ 54) * rnd total ≤ rnd size := by rw [← hx]; exact mul_le_mul_of_nonneg_right hc.le hp.le
      have g2 : y * (1 + 5 / 2 ^ 54) * (total * (1 - 1 / 2 ^ 53)) ≤ y * (1 + 5 / 2 ^ 54) * rnd total :=
        mul_le_mul_of_nonneg_left (by linarith) (by positivity)
      have g3 : y * (1 + 5 / 2 ^ 54) * (total * (1 - 1 / 2 ^ 53)) = size * ((1 + 5 / 2 ^ 54) * (1 - 1 / 2 ^ 53)) := by
        rw [← hy]; ring
      rcases hs.eq_or_lt with h0 | h0
      · have : y = 0 := by
          rcases mul_eq_zero.1 (hy.trans h0.symm) with h | h
          · exact h
          · exact absurd h htq.ne'
        subst this
        rw [← h0, rnd_zero] at hx
        rcases mul_eq_zero.1 hx with h | h
        · rw [h] at hc; simp at hc
        · exact absurd h hp.ne'
      · have : rnd (size : ℚ) ≤ size * (1 + 1 / 2 ^ 53) := by linarith
        have : (size : ℚ) * ((1 + 5 / 2 ^ 54) * (1 - 1 / 2 ^ 53)) ≤ size * (1 + 1 / 2 ^ 53) := by linarith
        have := le_of_mul_le_mul_left this h0
        norm_num at this
    have hlo : y * (1 - 1 / 2 ^ 52) ≤ x := by
      by_contra hc
      have hc := not_le.1 hc
      have g1 : rnd size ≤ y * (1 - 1 / 2 ^ 52) * rnd total := by rw [← hx]; exact mul_le_mul_of_nonneg_right hc.le hp.le
      have hy1 : 0 ≤ y * (1 - 1 / 2 ^ 52) := mul_nonneg hy0 (by norm_num)
      have g2 : y * (1 - 1 / 2 ^ 52) * rnd total ≤ y * (1 - 1 / 2 ^ 52) * (total * (1 + 1 / 2 ^ 53)) :=
        mul_le_mul_of_nonneg_left (by linarith) hy1
      have g3 : y * (1 - 1 / 2 ^ 52) * (total * (1 + 1 / 2 ^ 53)) = size * ((1 - 1 / 2 ^ 52) * (1 + 1 / 2 ^ 53)) := by
        rw [← hy]; ring
      rcases hs.eq_or_lt with h0 | h0
      · have : y = 0 := by
          rcases mul_eq_zero.1 (hy.trans h0.symm) with h | h
          · exact h
          · exact absurd h htq.ne'
        subst this
        simp only [zero_mul] at hc
        exact absurd hq (not_le.2 hc)
      · have : (size : ℚ) * (1 - 1 / 2 ^ 53) ≤ rnd size := by linarith
        have : (size : ℚ) * (1 - 1 / 2 ^ 53) ≤ size * ((1 - 1 / 2 ^ 52) * (1 + 1 / 2 ^ 53)) := by linarith
        have := le_of_mul_le_mul_left this h0
        norm_num at this
    rw [abs_le]
    constructor
    · linarith
    · linarith

/-- **C182**: rounding moves the draw by at most 2^-53, and the distribution by at most 2^-51 of the expected seats: if the
distribution function of the library is accurate up to `ε`, the seats are at most (at least) those that exact arithmetic
gives for every draw that is larger (smaller) by the sum of the three or more. -/
theorem C182_close (cdf : Dbl → Nat → Nat → Dbl) (ε : ℚ) (hacc : Accurate cdf ε) (money total size : ℕ) (ht : 0 < total)
    (hst : size ≤ total) (out : Bytes) (ho : out.length = 32) (w : ℕ)
    (h : select (doubles cdf) money total (ofU64 size) out = .ok w) :
    (∀ out' w', out'.length = 32 → select ideal money total (size : ℚ) out' = .ok w' →
      (ofBE out : ℚ) / ((2 ^ 256 - 1 : ℕ) : ℚ) + (ε + money * ((size : ℚ) / total) / 2 ^ 51 + 1 / 2 ^ 53) ≤
        (ofBE out' : ℚ) / ((2 ^ 256 - 1 : ℕ) : ℚ) → w ≤ w') ∧
    (∀ out' w', out'.length = 32 → select ideal money total (size : ℚ) out' = .ok w' →
      (ofBE out' : ℚ) / ((2 ^ 256 - 1 : ℕ) : ℚ) + (ε + money * ((size : ℚ) / total) / 2 ^ 51 + 1 / 2 ^ 53) <
        (ofBE out : ℚ) / ((2 ^ 256 - 1 : ℕ) : ℚ) → w' ≤ w) := by
  obtain ⟨l1, l2, l3⟩ := C57_least_count _ _ _ _ _ _ h
  have hd0 : (0 : ℚ) ≤ (ofBE out : ℚ) / ((2 ^ 256 - 1 : ℕ) : ℚ) := div_nonneg (Nat.cast_nonneg _) (Nat.cast_nonneg _)
  have herr := rnd_error hd0
  have hd1 := draw_le_one ho
  have herr' : |rnd ((ofBE out : ℚ) / ((2 ^ 256 - 1 : ℕ) : ℚ)) - (ofBE out : ℚ) / ((2 ^ 256 - 1 : ℕ) : ℚ)| ≤ 1 / 2 ^ 53 :=
    le_trans herr (div_le_div_of_nonneg_right hd1 (by norm_num))
  obtain ⟨e1, e2⟩ := abs_le.1 herr'
  have hge : ∀ i, i < money → ∃ c,
      |c - Binomial.cdf ((size : ℚ) / total) money i| ≤ ε + money * ((size : ℚ) / total) / 2 ^ 51 ∧
      (doubles cdf).ge ((doubles cdf).cdf ((doubles cdf).div (ofU64 size) ((doubles cdf).ofU64 total)) money i)
        ((doubles cdf).ratio (ofBE out)) = decide (rnd ((ofBE out : ℚ) / ((2 ^ 256 - 1 : ℕ) : ℚ)) ≤ c) := by
    intro i hi
    obtain ⟨p, hp, hp1, hp2, hp3, hp4⟩ := prob_error ht hst
    obtain ⟨c, hc, hb⟩ := hacc p money i hp1 hp2 hp3
    refine ⟨c, ?_, ?_⟩
    · have hy := prob_bounds hst
      have hm : (0 : ℚ) ≤ money := Nat.cast_nonneg _
      obtain ⟨b1, b2⟩ := abs_le.1 hb
      obtain ⟨q1, q2⟩ := abs_le.1 hp4
      rw [mul_div_assoc]
      have hq := mul_le_mul_of_nonneg_left hp4 hm
      rcases le_total p ((size : ℚ) / total) with hle | hle
      · have l := cdf_lipschitz hp2 hle hy.2 money i
        have m := Binomial.cdf_prob hp2 hle hy.2 money i
        rw [abs_sub_comm, abs_of_nonneg (by linarith)] at hq
        rw [abs_le]; constructor <;> linarith
      · have l := cdf_lipschitz hy.1 hle hp3 money i
        have m := Binomial.cdf_prob hy.1 hle hp3 money i
        rw [abs_of_nonneg (by linarith)] at hq
        rw [abs_le]; constructor <;> linarith
    · show ge (cdf (div (ofU64 size) (ofU64 total)) money i) _ = _
      rw [hp, hc]
      rfl
  constructor
  · intro out' w' ho' h' hle
    by_contra hc
    have hx := (select_ideal h' hst ho' w').1 (le_refl _)
    obtain ⟨c, hb, hg⟩ := hge w' (by omega)
    have := l2 w' (by omega)
    rw [hg, decide_eq_false_iff_not] at this
    obtain ⟨b1, b2⟩ := abs_le.1 hb
    linarith
  · intro out' w' ho' h' hlt
    by_contra hc
    have hw' := (C57_least_count _ _ _ _ _ _ h').1
    have hx : ¬ _ := fun hcon => absurd ((select_ideal h' hst ho' w).2 hcon) (by omega)
    obtain ⟨c, hb, hg⟩ := hge w (by omega)
    have := l3 (by omega)
    rw [hg, decide_eq_true_eq] at this
    obtain ⟨b1, b2⟩ := abs_le.1 hb
    linarith

/-- **C182**: with a valid proof, the verification of a credential crashes exactly if the stake is larger than the total,
there is no stake, or the committee is empty or larger than the total stake; rounding adds nothing. -/
theorem C182_verify_crash_iff {G : Type} [AddCommGroup G] (C : Curve G) (cdf : Dbl → Nat → Nat → Dbl) (hash : Bytes → Bytes)
    (proto : Params) (mem : Membership) (proof out : Bytes)
    (hp : verifyBytes C mem.record.selectionId proof (hash (mem.selector.id.bytes ++ mem.selector.data)) = .ok out) :
    verify C (doubles cdf) hash proto mem proof = .panic ↔
      mem.total < votingStake mem.record.account ∨ mem.total = 0 ∨ mem.committeeSize proto = 0 ∨
      mem.total < mem.committeeSize proto := by
  have hv : vrfVerify C hash mem.record.selectionId proof mem.selector = .ok out := hp
  rw [verify, hv]
  simp only [weigh]
  by_cases h1 : mem.total < votingStake mem.record.account
  · simp [h1]
  by_cases h2 : mem.total = 0 ∨ mem.committeeSize proto = 0 ∨ mem.committeeSize proto > mem.total
  · simp only [h1, if_false, if_pos h2, false_or]
    exact ⟨fun _ => h2, fun _ => trivial⟩
  · simp only [h1, if_false, if_neg h2, false_or]
    refine ⟨fun h => ?_, fun h => absurd h h2⟩
    exfalso
    simp only [not_or] at h2
    by_cases h3 : votingStake mem.record.account ≠ 0
    · obtain ⟨w, hw, _⟩ := C182_returns cdf (votingStake mem.record.account) mem.total (mem.committeeSize proto)
        (selectionHash hash proto ⟨out, mem.record.addr, 0⟩) (by omega) (by omega)
      have hw : select (doubles cdf) (votingStake mem.record.account) mem.total ((doubles cdf).ofU64 (mem.committeeSize proto))
        (selectionHash hash proto ⟨out, mem.record.addr, 0⟩) = .ok w := hw
      simp only [if_pos h3, hw] at h
      split at h <;> cases h
    · simp only [if_neg h3, if_true] at h
      cases h

/-- **C182**: in double precision, the credential that the owner of a selection key makes is accepted or has no seats. -/
theorem C182_own_credential {G : Type} [AddCommGroup G] (C : Curve G) (hC : GoodCurve C) (cdf : Dbl → Nat → Nat → Dbl)
    (hash : Bytes → Bytes) (proto : Params) (mem : Membership) (seed : Bytes)
    (hkey : mem.record.selectionId = (fromSeed C seed).pub) (hon : mem.record.account.status = .online)
    (hpos : 0 < mem.record.account.microAlgos) (htot : mem.record.account.microAlgos ≤ mem.total)
    (hsize : 0 < mem.committeeSize proto ∧ mem.committeeSize proto ≤ mem.total) :
    verify C (doubles cdf) hash proto mem (newCredential C hash (fromSeed C seed) mem.selector) = .err .zeroWeight ∨
    ∃ c, verify C (doubles cdf) hash proto mem (newCredential C hash (fromSeed C seed) mem.selector) = .ok c ∧ 0 < c.weight := by
  have hval : ∀ n, (doubles cdf).valid ((doubles cdf).div ((doubles cdf).ofU64 (mem.committeeSize proto))
      ((doubles cdf).ofU64 mem.total)) n = true := fun _ =>
    (isProb_iff _ _).2 ⟨by omega, rnd_mono (Nat.cast_nonneg _) (by exact_mod_cast hsize.2)⟩
  obtain ⟨_, w, _, h | ⟨hw, c, h, hc, _⟩⟩ := C58_own_credential C hC (doubles cdf) hash proto mem seed hkey hon hpos htot hsize hval
  · exact Or.inl h.2
  · exact Or.inr ⟨c, h, by rw [hc]; exact hw⟩

/-- A distribution function that rounds the exact value is accurate to 2^-53. -/
example : Accurate (fun p n j => match p with | .num p => .num (rnd (Binomial.cdf p n j)) | x => x) (1 / 2 ^ 53) := by
  intro p n j _ h0 h1
  refine ⟨_, rfl, ?_⟩
  exact le_trans (rnd_error (Binomial.cdf_nonneg h0 h1 n j))
    (div_le_div_of_nonneg_right (Binomial.cdf_le_one h0 h1 n j) (by norm_num))

/-- The first number that is no double: it is as near to the one below, whose last bit is zero. -/
example : rnd ((2 ^ 53 + 1 : ℕ) : ℚ) = 2 ^ 53 ∧ rnd ((2 ^ 53 + 3 : ℕ) : ℚ) = 2 ^ 53 + 4 := by
  have h : ∀ n : ℕ, 2 ^ 53 ≤ n → n < 2 ^ 54 → ulp (n : ℚ) = 2 := by
    intro n h1 h2
    rw [ulp, Int.log_natCast, (Nat.log_eq_iff (by norm_num)).2 ⟨h1, h2⟩]
    norm_num
  constructor <;> rw [rnd, h _ (by norm_num) (by norm_num), roundEven] <;> norm_num

/-- A case of `C182_nearest`: a third. -/
example : IsDouble (rnd (1 / 3)) ∧ |rnd (1 / 3) - 1 / 3| ≤ |(1 / 2 : ℚ) - 1 / 3| :=
  ⟨(C182_nearest (by norm_num)).1, (C182_nearest (by norm_num)).2 _ ⟨1, -1, by norm_num, by norm_num⟩⟩

/-- A case of `C182_returns`, `C182_crashes` and `C182_monotone`: a committee of 20 for stakes of 1000 and of 10. -/
example (cdf : Dbl → Nat → Nat → Dbl) (out : Bytes) : ∃ w, select (doubles cdf) 105 1000 (ofU64 20) out = .ok w ∧ w ≤ 105 ∧
    select (doubles cdf) 5 10 (ofU64 20) out = .panic ∧
    ∀ out' w', ofBE out ≤ ofBE out' → select (doubles cdf) 105 1000 (ofU64 20) out' = .ok w' → w ≤ w' := by
  obtain ⟨w, h, hw⟩ := C182_returns cdf 105 1000 20 out (by norm_num) (by norm_num)
  exact ⟨w, h, hw, C182_crashes cdf 5 10 20 out (by norm_num) (by norm_num), fun out' w' ho h' =>
    C182_monotone cdf 105 1000 20 out out' w w' ho h h'⟩

/-- A case of `C182_ties`: halfway between two doubles, the one with the even last digit. -/
example : |((2 ^ 53 + 2 : ℕ) : ℚ) - (2 ^ 53 + 1 : ℕ)| = |rnd ((2 ^ 53 + 1 : ℕ) : ℚ) - (2 ^ 53 + 1 : ℕ)| ∧
    ((2 ^ 53 + 2 : ℕ) : ℚ) ≠ rnd ((2 ^ 53 + 1 : ℕ) : ℚ) ∧ ∃ m e : ℤ, |m| < 2 ^ 52 ∧ rnd ((2 ^ 53 + 1 : ℕ) : ℚ) = m * 2 ^ e := by
  have hu : ulp ((2 ^ 53 + 1 : ℕ) : ℚ) = 2 := by
    rw [ulp, Int.log_natCast, (Nat.log_eq_iff (by norm_num)).2 ⟨show 2 ^ 53 ≤ _ by norm_num, by norm_num⟩]
    norm_num
  have hr : rnd ((2 ^ 53 + 1 : ℕ) : ℚ) = 2 ^ 53 := by rw [rnd, hu, roundEven]; norm_num
  have h1 : |((2 ^ 53 + 2 : ℕ) : ℚ) - (2 ^ 53 + 1 : ℕ)| = |rnd ((2 ^ 53 + 1 : ℕ) : ℚ) - (2 ^ 53 + 1 : ℕ)| := by rw [hr]; norm_num
  have h2 : ((2 ^ 53 + 2 : ℕ) : ℚ) ≠ rnd ((2 ^ 53 + 1 : ℕ) : ℚ) := by rw [hr]; norm_num
  exact ⟨h1, h2, C182_ties (by positivity) ⟨2 ^ 52 + 1, 1, by norm_num, by norm_num⟩ h2 h1⟩

/-- A case of `C182_close`: the distribution rounded to the nearest double. -/
example (out : Bytes) (ho : out.length = 32) (w : ℕ) (h : select (doubles fun p n j => match p with
      | .num p => .num (rnd (Binomial.cdf p n j))
      | x => x) 105 1000 (ofU64 20) out = .ok w) (out' : Bytes) (ho' : out'.length = 32) (w' : ℕ)
    (h' : select ideal 105 1000 (20 : ℕ) out' = .ok w')
    (hd : (ofBE out : ℚ) / ((2 ^ 256 - 1 : ℕ) : ℚ) + (1 / 2 ^ 53 + (105 : ℕ) * (((20 : ℕ) : ℚ) / (1000 : ℕ)) / 2 ^ 51 + 1 / 2 ^ 53) ≤
        (ofBE out' : ℚ) / ((2 ^ 256 - 1 : ℕ) : ℚ)) : w ≤ w' := by
  refine (C182_close _ (1 / 2 ^ 53) ?_ 105 1000 20 (by norm_num) (by norm_num) out ho w h).1 out' w' ho' h' hd
  intro p n j _ h0 h1
  refine ⟨_, rfl, ?_⟩
  exact le_trans (rnd_error (Binomial.cdf_nonneg h0 h1 n j))
    (div_le_div_of_nonneg_right (Binomial.cdf_le_one h0 h1 n j) (by norm_num))

/-- A case of `C182_verify_crash_iff`: the owner's credential for a committee larger than the total stake. -/
example (cdf : Dbl → Nat → Nat → Dbl) (hash : Bytes → Bytes) (proto : Params) :
    verify toyCurve (doubles cdf) hash proto { toyMember with committeeSize := fun _ => 1001 }
      (newCredential toyCurve hash (fromSeed toyCurve []) toyMember.selector) = .panic ∧
    verify toyCurve (doubles cdf) hash proto toyMember
      (newCredential toyCurve hash (fromSeed toyCurve []) toyMember.selector) ≠ .panic := by
  obtain ⟨_, h1, h2⟩ := C24_prove_verifies toyCurve toyCurve_good [] (hash (toyMember.selector.id.bytes ++ toyMember.selector.data))
  refine ⟨(C182_verify_crash_iff toyCurve cdf hash proto { toyMember with committeeSize := fun _ => 1001 } _ _ (h1.trans h2)).2
    (.inr (.inr (.inr (show 1000 < 1001 by decide)))), fun h => ?_⟩
  rcases (C182_verify_crash_iff toyCurve cdf hash proto toyMember _ _ (h1.trans h2)).1 h with h | h | h | h
  · exact absurd h (by decide +kernel)
  · exact absurd (show 1000 = 0 from h) (by decide)
  · exact absurd (show 20 = 0 from h) (by decide)
  · exact absurd (show 1000 < 20 from h) (by decide)

end Verif.Props
