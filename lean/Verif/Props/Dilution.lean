import Verif.Props.Double
import Verif.Props.AlgokeyPart
/-!
# C113 for every interval: the default dilution up to the largest rounds
-/

namespace Verif.Props
open Verif Verif.Account Verif.Algokey Verif.Double

/-- A number a little above a square has a root below the next but one whole number. -/
theorem sqrt_above (N m : Nat) (h : N ≤ (m + 1) * (m + 1) + 2 ^ 11) (hm : 2 ^ 12 ≤ m) : f64SqrtU64 N ≤ m + 1 := by
  simp only [f64SqrtU64]
  generalize 52 - Nat.log2 (Nat.sqrt N) = k
  have h4 : 4 ^ k = 2 ^ k * 2 ^ k := by rw [← Nat.mul_pow]
  have hp : 1 ≤ 2 ^ k := Nat.one_le_two_pow
  refine Nat.lt_succ_iff.1 ((Nat.div_lt_iff_lt_mul (Nat.two_pow_pos k)).2 ?_)
  have hr := Nat.sqrt_le (N * 4 ^ k)
  generalize hP : 2 ^ k = P at *
  have hN : N * 4 ^ k ≤ ((m + 1) * (m + 1) + 2 ^ 11) * (P * P) := by rw [h4]; exact Nat.mul_le_mul_right _ h
  generalize N * 4 ^ k = T at *
  generalize Nat.sqrt T = r at *
  have hM : T + (m + 2) * P ≤ ((m + 2) * P) * ((m + 2) * P) := by
    have e : ((m + 2) * P) * ((m + 2) * P) = ((m + 1) * (m + 1) + 2 ^ 11) * (P * P) + (2 * m + 3 - 2 ^ 11) * (P * P) := by
      rw [← Nat.add_mul]
      have : (m + 1) * (m + 1) + 2 ^ 11 + (2 * m + 3 - 2 ^ 11) = (m + 2) * (m + 2) := by
        rw [Nat.add_assoc, Nat.add_sub_cancel' (by omega)]; ring
      rw [this]; ring
    rw [e]
    have : (m + 2) * P ≤ (2 * m + 3 - 2 ^ 11) * (P * P) := Nat.mul_le_mul (by omega) (Nat.le_mul_of_pos_left _ hp)
    omega
  have hMpos : 0 < (m + 2) * P := Nat.mul_pos (by omega) hp
  show _ < (m + 2) * P
  generalize (m + 2) * P = M at *
  by_contra hc
  split at hc
  · rename_i hgt
    rcases Nat.lt_or_ge r M with hlt | hge
    · have e : r + 1 = M := by omega
      have e2 : M * M = r * r + r + M := by rw [← e]; ring
      omega
    · have := Nat.mul_le_mul hge hge
      omega
  · have hge : M ≤ r := by omega
    have := Nat.mul_le_mul hge hge
    omega

/-- A number a little below a square has its root rounded up to that of the square. -/
theorem sqrt_below (N m : Nat) (h2 : m * m * (2 ^ 53 - 1) ≤ N * 2 ^ 53) (hm : m < 2 ^ 32)
    (hlog : Nat.log2 (m - 1) = Nat.log2 m) (hs : Nat.sqrt N = m - 1) (h0 : 0 < m) : m ≤ f64SqrtU64 N := by
  simp only [f64SqrtU64, hs, hlog]
  have hl : Nat.log2 m < 32 := (Nat.log2_lt (by omega)).2 hm
  have hM : m * 2 ^ (52 - Nat.log2 m) < 2 ^ 53 := by
    have := Nat.lt_log2_self (n := m)
    calc m * 2 ^ (52 - Nat.log2 m) < 2 ^ (Nat.log2 m + 1) * 2 ^ (52 - Nat.log2 m) :=
          Nat.mul_lt_mul_of_pos_right this (Nat.two_pow_pos _)
      _ = 2 ^ 53 := by rw [← Nat.pow_add]; congr 1; omega
  generalize 52 - Nat.log2 m = k at *
  have h4 : 4 ^ k = 2 ^ k * 2 ^ k := by rw [← Nat.mul_pow]
  rw [Nat.le_div_iff_mul_le (Nat.two_pow_pos k)]
  have hp : 1 ≤ 2 ^ k := Nat.one_le_two_pow
  generalize 2 ^ k = P at *
  have hT : (m * P) * (m * P) * (2 ^ 53 - 1) ≤ N * 4 ^ k * 2 ^ 53 := by
    calc (m * P) * (m * P) * (2 ^ 53 - 1) = (m * m * (2 ^ 53 - 1)) * (P * P) := by ring
      _ ≤ (N * 2 ^ 53) * (P * P) := Nat.mul_le_mul_right _ h2
      _ = N * 4 ^ k * 2 ^ 53 := by rw [h4]; ring
  have hMpos : 0 < m * P := Nat.mul_pos h0 hp
  have hr := Nat.sqrt_le (N * 4 ^ k)
  have hr' := Nat.lt_succ_sqrt (N * 4 ^ k)
  generalize N * 4 ^ k = T at *
  generalize m * P = M at *
  generalize Nat.sqrt T = r at *
  have hMM : M * M < M * 2 ^ 53 := Nat.mul_lt_mul_of_pos_left hM hMpos
  have key : M * M < T + M := by
    have : M * M * 2 ^ 53 = M * M * (2 ^ 53 - 1) + M * M := by ring
    have : M * M * 2 ^ 53 < (T + M) * 2 ^ 53 := by rw [Nat.add_mul]; omega
    exact Nat.lt_of_mul_lt_mul_right this
  by_contra hc
  split at hc
  · have hle : r + 2 ≤ M := by omega
    have h5 : (r + 1) * (r + 2) ≤ (M - 1) * M := Nat.mul_le_mul (by omega) hle
    have h6 : (M - 1) * M + M = M * M := by rw [← Nat.succ_mul]; congr 1; omega
    have h7 : (r + 1) * (r + 2) = (r + 1) * (r + 1) + (r + 1) := by ring
    have h8 : Nat.succ r * Nat.succ r = (r + 1) * (r + 1) := rfl
    omega
  · have hle : r + 1 ≤ M := by omega
    have h5 : r * (r + 1) ≤ (M - 1) * M := Nat.mul_le_mul (by omega) hle
    have h6 : (M - 1) * M + M = M * M := by rw [← Nat.succ_mul]; congr 1; omega
    have h7 : r * (r + 1) = r * r + r := by ring
    omega

theorem ofU64_near (n : Nat) (h : n < u64Lim) : f64OfU64 n ≤ n + 2 ^ 11 := by
  have h1 := rnd_error (q := (n : ℚ)) (Nat.cast_nonneg _)
  rw [← C182_conversion] at h1
  have h2 := (abs_le.1 h1).2
  have h3 : (n : ℚ) ≤ 2 ^ 64 := by rw [u64Lim] at h; exact_mod_cast h.le
  have h4 : (f64OfU64 n : ℚ) ≤ ((n + 2 ^ 11 : ℕ) : ℚ) := by
    have : (n : ℚ) / 2 ^ 53 ≤ 2 ^ 11 := by rw [div_le_iff₀ (by norm_num)]; exact le_trans h3 (by norm_num)
    push_cast
    linarith
  exact_mod_cast h4

/-- The root of a rounded number is not below the whole root. -/
theorem root_lower (n : Nat) (h : n < u64Lim) : Nat.sqrt n ≤ f64SqrtU64 (f64OfU64 n) := by
  generalize hm : Nat.sqrt n = m
  generalize hN : f64OfU64 n = N
  rcases Nat.lt_or_ge N (m * m) with hlt | hge
  · -- the rounding went below the square
    have hmn : m * m ≤ n := by rw [← hm]; exact Nat.sqrt_le n
    have hn53 : ¬ n < 2 ^ 53 := by
      intro hc
      rw [f64OfU64, if_pos hc] at hN
      omega
    have hm32 : m < 2 ^ 32 := by
      rw [← hm, Nat.sqrt_lt]; rw [u64Lim] at h; exact lt_of_lt_of_eq h (by norm_num)
    have hm26 : 2 ^ 26 ≤ m := by rw [← hm, Nat.le_sqrt]; exact le_trans (by norm_num) (not_lt.1 hn53)
    have hrnd : rnd ((m * m : ℕ) : ℚ) ≤ (N : ℚ) := by
      rw [← hN, C182_conversion]
      exact rnd_mono (Nat.cast_nonneg _) (by exact_mod_cast hmn)
    have herr := (abs_le.1 (rnd_error (q := ((m * m : ℕ) : ℚ)) (Nat.cast_nonneg _))).1
    have h2 : m * m * (2 ^ 53 - 1) ≤ N * 2 ^ 53 := by
      have : ((m * m : ℕ) : ℚ) * (2 ^ 53 - 1) ≤ N * 2 ^ 53 := by linarith
      have e : ((2 ^ 53 - 1 : ℕ) : ℚ) = 2 ^ 53 - 1 := by norm_num
      rw [← e] at this
      exact_mod_cast this
    have hlog : Nat.log2 (m - 1) = Nat.log2 m := by
      by_contra hne
      -- a power of two squared is a double
      have hl1 := Nat.log2_self_le (n := m) (by omega)
      have hl2 := Nat.lt_log2_self (n := m)
      have hpow : m = 2 ^ Nat.log2 m := by
        by_contra hp
        apply hne
        rw [Nat.log2_eq_iff (by omega)]
        omega
      have hd : IsDouble ((m * m : ℕ) : ℚ) := ⟨1, (Nat.log2 m : ℤ) + Nat.log2 m, by norm_num, by
        conv_lhs => rw [hpow]
        push_cast
        rw [zpow_add₀ (by norm_num), zpow_natCast, one_mul]⟩
      have hnear := (C182_nearest (q := ((m * m : ℕ) : ℚ)) (Nat.cast_nonneg _)).2 _ hd
      rw [sub_self, abs_zero] at hnear
      have := abs_nonpos_iff.1 hnear
      have hx : ((m * m : ℕ) : ℚ) ≤ N := by linarith
      have : m * m ≤ N := by exact_mod_cast hx
      omega
    have hs : Nat.sqrt N = m - 1 := by
      obtain ⟨j, rfl⟩ : ∃ j, m = j + 1 := ⟨m - 1, by omega⟩
      have hle : Nat.sqrt N < j + 1 := Nat.sqrt_lt.2 hlt
      have hge : j ≤ Nat.sqrt N := by
        rw [Nat.le_sqrt]
        have e : (j + 1) * (j + 1) = j * j + 2 * j + 1 := by ring
        have hb : (j + 1) * (j + 1) ≤ 2 ^ 64 := by
          calc (j + 1) * (j + 1) ≤ 2 ^ 32 * 2 ^ 32 := Nat.mul_le_mul hm32.le hm32.le
            _ = 2 ^ 64 := by norm_num
        omega
      omega
    exact sqrt_below N m h2 hm32 hlog hs (by omega)
  · exact le_trans (Nat.le_sqrt.2 hge) (sqrt_lower N)

/-- **C113**: for every interval the default dilution less one is the whole square root of its length, or one more. -/
theorem C113_every_interval (first last : Nat) (h : first ≤ last) (hl : last < u64Lim) :
    ∃ d, dilutionOf 0 first last = .ok d ∧ Nat.sqrt (last - first) + 1 ≤ d ∧ d ≤ Nat.sqrt (last - first) + 2 := by
  obtain ⟨d, hd, h1, _, h3⟩ := C113_default_dilution first last h hl
  refine ⟨d, hd, ?_⟩
  have hd' : d = 1 + f64SqrtU64 (f64OfU64 (last - first)) := by
    have := hd
    rw [dilutionOf, if_pos rfl, subU, if_pos h, Res.ok_bind, addU64] at this
    split at this
    · injection this with this; exact this.symm
    · cases this
  have hlen : last - first < u64Lim := by omega
  have hlow := root_lower _ hlen
  refine ⟨by omega, ?_⟩
  by_cases hs : last - first < 2 ^ 52
  · obtain ⟨h4, _⟩ := h3 hs
    have := Nat.le_sqrt.2 h4
    omega
  · have hm : 2 ^ 12 ≤ Nat.sqrt (last - first) := by
      rw [Nat.le_sqrt]; exact le_trans (by norm_num) (not_lt.1 hs)
    have hn := ofU64_near _ hlen
    have hsq := Nat.lt_succ_sqrt (last - first)
    have := sqrt_above _ _ (le_trans hn (Nat.add_le_add_right hsq.le _)) hm
    omega

/-- **C113**: for every interval the number of batch keys made with the default dilution is at most one more than the
dilution. -/
theorem C113_every_batches (first last d : Nat) (h : first ≤ last) (hl : last < u64Lim)
    (hd : dilutionOf 0 first last = .ok d) : last / d - first / d + 1 ≤ d + 1 := by
  obtain ⟨d', e, h1, _⟩ := C113_every_interval first last h hl
  rw [hd] at e
  injection e with e; subst e
  have h3 : last - first < d * d := lt_of_lt_of_le (Nat.lt_succ_sqrt _) (Nat.mul_le_mul h1 h1)
  have h4 : last < (first / d + 1) * d + d * d := by
    have h5 : first < (first / d + 1) * d := by rw [Nat.mul_comm]; exact Nat.lt_mul_div_succ first (by omega)
    omega
  have : last / d < first / d + 1 + d := by
    rw [Nat.div_lt_iff_lt_mul (by omega), Nat.add_mul (first / d + 1)]; exact h4
  omega

/-- The longest interval: the root is rounded up to the next whole number. -/
example : dilutionOf 0 0 (2 ^ 64 - 1) = .ok (2 ^ 32 + 1) ∧ Nat.sqrt (2 ^ 64 - 1) = 2 ^ 32 - 1 := by
  constructor
  · decide +kernel
  · symm; rw [Nat.eq_sqrt]; norm_num

/-- A case of `C113_every_interval`. -/
example : ∃ d, dilutionOf 0 5 (2 ^ 63 + 17) = .ok d ∧ d ≤ Nat.sqrt (2 ^ 63 + 17 - 5) + 2 := by
  obtain ⟨d, h, _, h2⟩ := C113_every_interval 5 (2 ^ 63 + 17) (by norm_num) (by norm_num [u64Lim])
  exact ⟨d, h, h2⟩

end Verif.Props
