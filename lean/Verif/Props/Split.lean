import Verif.Props.Committee
import Mathlib.Algebra.Order.BigOperators.Ring.Finset
import Mathlib.Algebra.BigOperators.Field
import Mathlib.Tactic.Ring
import Mathlib.Tactic.Linarith
/-!
# C184: dividing stake over accounts

In exact arithmetic. A draw is one of the `2^256` digests; the draws of several accounts are independent of each other.
-/
namespace Verif.Props
open Verif Verif.Committee Verif.Msgpack Finset

/-- The probability of exactly `j` successes in `n` trials. -/
def binomPmf (p : ℚ) (n j : Nat) : ℚ := (n.choose j : ℚ) * p ^ j * (1 - p) ^ (n - j)

theorem cdf_eq_pmf (p : ℚ) (n i : Nat) : Binomial.cdf p n i = ∑ j ∈ range (i + 1), binomPmf p n j := rfl

theorem binomPmf_zero (p : ℚ) (j : Nat) : binomPmf p 0 j = if j = 0 then 1 else 0 := by
  cases j with
  | zero => simp [binomPmf]
  | succ j => simp [binomPmf]

theorem binomPmf_nonneg {p : ℚ} (h0 : 0 ≤ p) (h1 : p ≤ 1) (n j : Nat) : 0 ≤ binomPmf p n j :=
  Binomial.term_nonneg h0 h1 n j

theorem binomPmf_succ_zero (p : ℚ) (n : Nat) : binomPmf p (n + 1) 0 = (1 - p) * binomPmf p n 0 := by
  have h1 := Binomial.cdf_zero_succ p n
  simpa [cdf_eq_pmf] using h1

theorem binomPmf_succ_succ (p : ℚ) (n i : Nat) :
    binomPmf p (n + 1) (i + 1) = (1 - p) * binomPmf p n (i + 1) + p * binomPmf p n i := by
  have h1 := Binomial.cdf_succ_succ p n i
  rw [cdf_eq_pmf, sum_range_succ, ← cdf_eq_pmf, cdf_eq_pmf p n (i + 1), sum_range_succ, ← cdf_eq_pmf] at h1
  cases i with
  | zero =>
    have h2 := Binomial.cdf_zero_succ p n
    have h3 : Binomial.cdf p n 0 = binomPmf p n 0 := by simp [cdf_eq_pmf]
    rw [h2, h3] at h1
    linarith
  | succ i =>
    have h2 := Binomial.cdf_succ_succ p n i
    have h3 : Binomial.cdf p n (i + 1) = Binomial.cdf p n i + binomPmf p n (i + 1) := by
      rw [cdf_eq_pmf, sum_range_succ, ← cdf_eq_pmf]
    rw [h2] at h1
    rw [h3] at h1
    linarith

/-- The sum of two numbers of successes. -/
theorem cdf_add (p : ℚ) (b : Nat) : ∀ a j, ∑ i ∈ range (j + 1), binomPmf p a i * Binomial.cdf p b (j - i) =
    Binomial.cdf p (a + b) j
  | 0, j => by
    rw [sum_range_succ', sum_eq_zero (fun i _ => by simp [binomPmf_zero])]
    simp [binomPmf_zero]
  | a + 1, 0 => by
    have := cdf_add p b a 0
    simp only [zero_add, sum_range_one, Nat.sub_zero] at this ⊢
    rw [binomPmf_succ_zero, mul_assoc, this, show a + 1 + b = a + b + 1 by omega, Binomial.cdf_zero_succ]
  | a + 1, j + 1 => by
    have h1 := cdf_add p b a (j + 1)
    have h2 := cdf_add p b a j
    rw [show a + 1 + b = a + b + 1 by omega, Binomial.cdf_succ_succ, ← h1, ← h2, sum_range_succ' _ (j + 1),
      sum_range_succ' _ (j + 1), mul_add, mul_sum, mul_sum, binomPmf_succ_zero]
    have : ∀ i ∈ range (j + 1), binomPmf p (a + 1) (i + 1) * Binomial.cdf p b (j + 1 - (i + 1)) =
        (1 - p) * (binomPmf p a (i + 1) * Binomial.cdf p b (j + 1 - (i + 1))) + p * (binomPmf p a i * Binomial.cdf p b (j - i)) := by
      intro i _
      rw [binomPmf_succ_succ, Nat.add_sub_add_right]
      ring
    rw [sum_congr rfl this, sum_add_distrib]
    ring

theorem cdf_of_le (p : ℚ) (n : Nat) {j : Nat} (h : n ≤ j) : Binomial.cdf p n j = 1 := by
  induction j, h using Nat.le_induction with
  | base => exact Binomial.cdf_full p n
  | succ j hj ih =>
    rw [cdf_eq_pmf, sum_range_succ, ← cdf_eq_pmf, ih, binomPmf, Nat.choose_eq_zero_of_lt (by omega)]
    simp

/-- The mean number of successes. -/
theorem cdf_mean (p : ℚ) : ∀ n, ∑ j ∈ range n, (1 - Binomial.cdf p n j) = n * p
  | 0 => by simp
  | n + 1 => by
    have ih := cdf_mean p n
    have h1 : ∑ j ∈ range (n + 1), (1 - Binomial.cdf p n j) = n * p := by
      rw [sum_range_succ, ih, Binomial.cdf_full]; ring
    rw [sum_range_succ'] at h1
    rw [sum_range_succ', Binomial.cdf_zero_succ]
    have : ∀ j ∈ range n, 1 - Binomial.cdf p (n + 1) (j + 1) =
        (1 - p) * (1 - Binomial.cdf p n (j + 1)) + p * (1 - Binomial.cdf p n j) := by
      intro j _
      rw [Binomial.cdf_succ_succ]; ring
    rw [sum_congr rfl this, sum_add_distrib, ← mul_sum, ← mul_sum, ih]
    have h2 : ∑ j ∈ range n, (1 - Binomial.cdf p n (j + 1)) = n * p - (1 - Binomial.cdf p n 0) := by linarith
    rw [h2]
    push_cast
    ring

/-- `seats t` is the number of seats that the sortition gives, for the draw with number `t`, to an account with stake `m`
in a committee of `size` seats, when all stakes sum up to `total`. -/
def SeatsOf (m total size : Nat) (seats : Nat → Nat) : Prop :=
  ∀ t, t < 2 ^ 256 → ∃ out : Bytes, out.length = 32 ∧ ofBE out = t ∧ select ideal m total (size : ℚ) out = .ok (seats t)

/-- C184: over all draws, the number of seats of an account is on average its stake times the committee size divided by the
total stake, and larger than that by at most its stake in all draws together. -/
theorem C184_mean (m total size : Nat) (hst : size ≤ total) (seats : Nat → Nat) (h : SeatsOf m total size seats) :
    ((2 ^ 256 - 1 : Nat) : ℚ) * (m * ((size : ℚ) / total)) ≤ ((∑ t ∈ range (2 ^ 256), seats t : Nat) : ℚ) ∧
    ((∑ t ∈ range (2 ^ 256), seats t : Nat) : ℚ) ≤ ((2 ^ 256 - 1 : Nat) : ℚ) * (m * ((size : ℚ) / total)) + m := by
  have hle : ∀ t < 2 ^ 256, seats t ≤ m := fun t ht => by
    obtain ⟨out, h1, _, h3⟩ := h t ht
    exact (C57_least_count _ _ _ _ _ _ h3).1
  have hsh := C88_share_of_draws m total size hst seats h
  have hp := prob_bounds hst
  have hsum : ∑ t ∈ range (2 ^ 256), seats t = ∑ j ∈ range m, ((range (2 ^ 256)).filter (fun t => j < seats t)).card := by
    generalize 2 ^ 256 = N at *
    simp only [card_filter]
    rw [sum_comm]
    refine sum_congr rfl fun t ht => ?_
    have := hle t (mem_range.1 ht)
    rw [← card_filter]
    have he : (range m).filter (fun j => j < seats t) = range (seats t) := by
      ext j; simp only [mem_filter, mem_range]; omega
    rw [he, card_range]
  rw [hsum, sum_congr rfl fun j _ => hsh j]
  have hMpos : (0 : ℚ) ≤ ((2 ^ 256 - 1 : Nat) : ℚ) := Nat.cast_nonneg _
  generalize (2 ^ 256 - 1 : Nat) = M at *
  have hb : ∀ j, (M : ℚ) * (1 - Binomial.cdf ((size : ℚ) / total) m j) ≤
        ((M - ⌊Binomial.cdf ((size : ℚ) / total) m j * (M : ℚ)⌋₊ : Nat) : ℚ) ∧
      ((M - ⌊Binomial.cdf ((size : ℚ) / total) m j * (M : ℚ)⌋₊ : Nat) : ℚ) ≤
        (M : ℚ) * (1 - Binomial.cdf ((size : ℚ) / total) m j) + 1 := by
    intro j
    have hc1 := Binomial.cdf_le_one hp.1 hp.2 m j
    have hc0 := Binomial.cdf_nonneg hp.1 hp.2 m j
    generalize Binomial.cdf ((size : ℚ) / total) m j = c at *
    have hx : c * (M : ℚ) ≤ (M : ℚ) := mul_le_of_le_one_left hMpos hc1
    have hfl : ⌊c * (M : ℚ)⌋₊ ≤ M := by
      calc ⌊c * (M : ℚ)⌋₊ ≤ ⌊(M : ℚ)⌋₊ := Nat.floor_mono hx
        _ = M := Nat.floor_natCast M
    rw [Nat.cast_sub hfl]
    have h1 := Nat.floor_le (mul_nonneg hc0 hMpos)
    have h2 := Nat.lt_floor_add_one (c * (M : ℚ))
    constructor <;> linarith
  push_cast
  rw [← cdf_mean ((size : ℚ) / total) m, mul_sum]
  refine ⟨sum_le_sum fun j _ => (hb j).1, ?_⟩
  refine (sum_le_sum fun j _ => (hb j).2).trans (le_of_eq ?_)
  rw [sum_add_distrib]
  simp

/-- The number of ways to draw once for every account, out of `N` draws each, such that all accounts together have at most
`j` seats. -/
def waysAtMost (N : Nat) : List (Nat → Nat) → Nat → Nat
  | [], _ => 1
  | seats :: rest, j => ∑ t ∈ range N, if seats t ≤ j then waysAtMost N rest (j - seats t) else 0

theorem share_at_most (m total size : Nat) (hst : size ≤ total) (seats : Nat → Nat) (h : SeatsOf m total size seats) (j : Nat) :
    |(((range (2 ^ 256)).filter (fun t => seats t ≤ j)).card : ℚ) / 2 ^ 256 - Binomial.cdf ((size : ℚ) / total) m j| ≤
      1 / 2 ^ 256 := by
  have hsh := C88_share_of_draws m total size hst seats h j
  have hp := prob_bounds hst
  have hc1 := Binomial.cdf_le_one hp.1 hp.2 m j
  have hc0 := Binomial.cdf_nonneg hp.1 hp.2 m j
  generalize Binomial.cdf ((size : ℚ) / total) m j = c at *
  have hsplit := Finset.card_filter_add_card_filter_not (s := range (2 ^ 256)) (fun t => seats t ≤ j)
  simp only [not_le] at hsplit
  rw [hsh, card_range] at hsplit
  generalize ((range (2 ^ 256)).filter (fun t => seats t ≤ j)).card = F at *
  have hN : (2 : ℚ) ^ 256 = ((2 ^ 256 : Nat) : ℚ) := by norm_num
  rw [hN]
  generalize hM : (2 ^ 256 - 1 : Nat) = M at *
  have hM1 : (2 ^ 256 : Nat) = M + 1 := by rw [← hM]; exact (Nat.sub_add_cancel Nat.one_le_two_pow).symm
  rw [hM1] at hsplit ⊢
  have hMpos : (0 : ℚ) ≤ M := Nat.cast_nonneg _
  have hx : c * (M : ℚ) ≤ (M : ℚ) := mul_le_of_le_one_left hMpos hc1
  have hfl : ⌊c * (M : ℚ)⌋₊ ≤ M := by
    calc ⌊c * (M : ℚ)⌋₊ ≤ ⌊(M : ℚ)⌋₊ := Nat.floor_mono hx
      _ = M := Nat.floor_natCast M
  have hF : F = ⌊c * (M : ℚ)⌋₊ + 1 := by omega
  have h1 := Nat.floor_le (mul_nonneg hc0 hMpos)
  have h2 := Nat.lt_floor_add_one (c * (M : ℚ))
  have hpos : (0 : ℚ) < ((M + 1 : Nat) : ℚ) := by positivity
  have hFq : (F : ℚ) = (⌊c * (M : ℚ)⌋₊ : ℚ) + 1 := by rw [hF]; push_cast; ring
  have hMq : ((M + 1 : Nat) : ℚ) = (M : ℚ) + 1 := by push_cast; ring
  rw [div_sub' (ne_of_gt hpos), abs_div, abs_of_pos hpos, div_le_div_iff_of_pos_right hpos, abs_le, hFq, hMq]
  clear hN hM hM1 hsh hsplit
  constructor <;> linarith

/-- Accounts with their stakes and draws. -/
def AllSeats (total size : Nat) (accounts : List (Nat × (Nat → Nat))) : Prop :=
  ∀ a ∈ accounts, SeatsOf a.1 total size a.2

theorem ways_step (p : ℚ) (S : Nat) (N : Nat) (seats : Nat → Nat) (j : Nat) :
    ∑ t ∈ range N, (if seats t ≤ j then Binomial.cdf p S (j - seats t) else 0) =
      ∑ i ∈ range (j + 1), binomPmf p S i * (((range N).filter (fun t => seats t ≤ j - i)).card : ℚ) := by
  have h1 : ∀ t ∈ range N, (if seats t ≤ j then Binomial.cdf p S (j - seats t) else 0) =
      ∑ i ∈ range (j + 1), if seats t ≤ j - i ∧ i ≤ j then binomPmf p S i else 0 := by
    intro t _
    split
    · rename_i hs
      rw [cdf_eq_pmf, ← sum_filter]
      refine sum_congr ?_ fun _ _ => rfl
      ext i; simp only [mem_range, mem_filter]; omega
    · rename_i hs
      refine (sum_eq_zero fun i _ => if_neg ?_).symm
      omega
  rw [sum_congr rfl h1, sum_comm]
  refine sum_congr rfl fun i hi => ?_
  have hi' := mem_range.1 hi
  rw [card_filter, Nat.cast_sum, mul_sum]
  refine sum_congr rfl fun t _ => ?_
  by_cases h : seats t ≤ j - i
  · rw [if_pos ⟨h, by omega⟩, if_pos h]; simp
  · rw [if_neg (fun hc => h hc.1), if_neg h]; simp

/-- The induction over the accounts, for any number of draws and any error in the distribution of one account. -/
theorem divided_aux (p : ℚ) (hp : 0 ≤ p ∧ p ≤ 1) (N : Nat) (hN : 0 < N) (e : Nat → ℚ) : ∀ (accounts : List (Nat × (Nat → Nat))),
    (∀ a ∈ accounts, ∀ j, |(((range N).filter (fun t => a.2 t ≤ j)).card : ℚ) / N - Binomial.cdf p a.1 j| ≤ e a.1) → ∀ j,
    |((waysAtMost N (accounts.map Prod.snd) j : Nat) : ℚ) / (N : ℚ) ^ accounts.length -
      Binomial.cdf p (accounts.map Prod.fst).sum j| ≤ (accounts.map fun a => e a.1).sum := by
  have hNpos : (0 : ℚ) < N := by exact_mod_cast hN
  intro accounts
  induction accounts with
  | nil =>
    intro _ j
    simp [waysAtMost, cdf_of_le _ 0 (Nat.zero_le j)]
  | cons a rest ih =>
    intro h j
    obtain ⟨m, seats⟩ := a
    have hs := h _ (List.mem_cons_self ..)
    replace ih := ih fun b hb => h b (List.mem_cons_of_mem _ hb)
    simp only [List.map_cons, List.sum_cons, List.length_cons, waysAtMost]
    generalize (rest.map Prod.fst).sum = S at *
    generalize rest.map Prod.snd = l at *
    generalize rest.length = k at *
    generalize (rest.map fun a => e a.1).sum = E at *
    have hE : 0 ≤ E := (abs_nonneg _).trans (ih 0)
    have he : 0 ≤ e m := (abs_nonneg _).trans (hs 0)
    have hNk : (0 : ℚ) < (N : ℚ) ^ k := by positivity
    -- the draws of the others replaced by the binomial distribution
    have e1 : |(∑ t ∈ range N, ((if seats t ≤ j then waysAtMost N l (j - seats t) else 0 : Nat) : ℚ)) / (N : ℚ) ^ (k + 1) -
        (∑ t ∈ range N, (if seats t ≤ j then Binomial.cdf p S (j - seats t) else 0)) / N| ≤ E := by
      have : (∑ t ∈ range N, ((if seats t ≤ j then waysAtMost N l (j - seats t) else 0 : Nat) : ℚ)) / (N : ℚ) ^ (k + 1) -
          (∑ t ∈ range N, (if seats t ≤ j then Binomial.cdf p S (j - seats t) else 0)) / N =
          (∑ t ∈ range N, (((if seats t ≤ j then waysAtMost N l (j - seats t) else 0 : Nat) : ℚ) / (N : ℚ) ^ k -
            (if seats t ≤ j then Binomial.cdf p S (j - seats t) else 0))) / N := by
        rw [sum_sub_distrib, ← sum_div, sub_div, pow_succ, div_div]
      rw [this, abs_div, abs_of_pos hNpos, div_le_iff₀ hNpos]
      refine (abs_sum_le_sum_abs _ _).trans ?_
      calc _ ≤ ∑ t ∈ range N, E := by
            refine sum_le_sum fun t _ => ?_
            split
            · exact ih _
            · simpa using hE
        _ = E * N := by rw [sum_const, card_range, nsmul_eq_mul, mul_comm]
    -- the draws of this account replaced by the binomial distribution
    have e2 : |(∑ t ∈ range N, (if seats t ≤ j then Binomial.cdf p S (j - seats t) else 0)) / N -
        Binomial.cdf p (m + S) j| ≤ e m := by
      rw [ways_step, Nat.add_comm m S, ← cdf_add, sum_div, ← sum_sub_distrib]
      refine (abs_sum_le_sum_abs _ _).trans ?_
      calc _ ≤ ∑ i ∈ range (j + 1), binomPmf p S i * e m := by
            refine sum_le_sum fun i _ => ?_
            rw [mul_div_assoc, ← mul_sub, abs_mul, abs_of_nonneg (binomPmf_nonneg hp.1 hp.2 _ _)]
            exact mul_le_mul_of_nonneg_left (hs _) (binomPmf_nonneg hp.1 hp.2 _ _)
        _ = Binomial.cdf p S j * e m := by rw [← sum_mul, cdf_eq_pmf]
        _ ≤ e m := mul_le_of_le_one_left he (Binomial.cdf_le_one hp.1 hp.2 _ _)
    have := (abs_sub_le _ _ _).trans (add_le_add e1 e2)
    rw [add_comm E] at this
    rwa [Nat.cast_sum]

/-- C184: however stake is divided over accounts, the share of the draws in which they have at most `j` seats together is
the binomial probability for the sum of their stakes, up to one part in `2^256` for every account. -/
theorem C184_divided (total size : Nat) (hst : size ≤ total) (accounts : List (Nat × (Nat → Nat)))
    (h : AllSeats total size accounts) (j : Nat) :
    |((waysAtMost (2 ^ 256) (accounts.map Prod.snd) j : Nat) : ℚ) / (2 ^ 256) ^ accounts.length -
      Binomial.cdf ((size : ℚ) / total) (accounts.map Prod.fst).sum j| ≤ (accounts.length : ℚ) / 2 ^ 256 := by
  have hs : ∀ a ∈ accounts, ∀ j, _ := fun a ha => share_at_most a.1 total size hst a.2 (h a ha)
  have hN : (2 : ℚ) ^ 256 = ((2 ^ 256 : Nat) : ℚ) := by norm_num
  have hpos : 0 < 2 ^ 256 := Nat.two_pow_pos 256
  rw [hN] at hs ⊢
  revert hs hpos
  generalize (2 ^ 256 : Nat) = N
  intro hs hpos
  have := divided_aux _ (prob_bounds hst) N hpos (fun _ => 1 / N) accounts hs j
  rwa [List.map_const', List.sum_replicate, nsmul_eq_mul, mul_one_div] at this

/-- C184: two ways of dividing the same stake have the same distribution of the number of seats, up to one part in `2^256`
for every account. -/
theorem C184_no_gain (total size : Nat) (hst : size ≤ total) (accounts accounts' : List (Nat × (Nat → Nat)))
    (h : AllSeats total size accounts) (h' : AllSeats total size accounts')
    (hsum : (accounts.map Prod.fst).sum = (accounts'.map Prod.fst).sum) (j : Nat) :
    |((waysAtMost (2 ^ 256) (accounts.map Prod.snd) j : Nat) : ℚ) / (2 ^ 256) ^ accounts.length -
      ((waysAtMost (2 ^ 256) (accounts'.map Prod.snd) j : Nat) : ℚ) / (2 ^ 256) ^ accounts'.length| ≤
      ((accounts.length : ℚ) + accounts'.length) / 2 ^ 256 := by
  have h1 := C184_divided total size hst accounts h j
  have h2 := C184_divided total size hst accounts' h' j
  rw [← hsum, abs_sub_comm] at h2
  have := (abs_sub_le _ _ _).trans (add_le_add h1 h2)
  rwa [← add_div] at this

theorem sum_of_means (R : Finset Nat) (M q : ℚ) (accounts : List (Nat × (Nat → Nat)))
    (hm : ∀ a ∈ accounts, M * (a.1 * q) ≤ ((∑ t ∈ R, a.2 t : Nat) : ℚ) ∧ ((∑ t ∈ R, a.2 t : Nat) : ℚ) ≤ M * (a.1 * q) + a.1) :
    M * (((accounts.map Prod.fst).sum : Nat) * q) ≤ (((accounts.map fun a => ∑ t ∈ R, a.2 t).sum : Nat) : ℚ) ∧
    (((accounts.map fun a => ∑ t ∈ R, a.2 t).sum : Nat) : ℚ) ≤
      M * (((accounts.map Prod.fst).sum : Nat) * q) + ((accounts.map Prod.fst).sum : Nat) := by
  induction accounts with
  | nil => simp
  | cons a rest ih =>
    have h1 := hm a (List.mem_cons_self ..)
    have h2 := ih fun b hb => hm b (List.mem_cons_of_mem _ hb)
    simp only [List.map_cons, List.sum_cons, Nat.cast_add, add_mul, mul_add] at h1 h2 ⊢
    constructor <;> linarith [h1.1, h1.2, h2.1, h2.2]

/-- C184: the accounts that hold all stake together have on average as many seats as the committee is to have, and more than
that by at most the total stake in all draws together. -/
theorem C184_committee_size (total size : Nat) (hst : size ≤ total) (hpos : 0 < total) (accounts : List (Nat × (Nat → Nat)))
    (h : AllSeats total size accounts) (hsum : (accounts.map Prod.fst).sum = total) :
    ((2 ^ 256 - 1 : Nat) : ℚ) * size ≤ (((accounts.map fun a => ∑ t ∈ range (2 ^ 256), a.2 t).sum : Nat) : ℚ) ∧
    (((accounts.map fun a => ∑ t ∈ range (2 ^ 256), a.2 t).sum : Nat) : ℚ) ≤ ((2 ^ 256 - 1 : Nat) : ℚ) * size + total := by
  have key := sum_of_means (range (2 ^ 256)) ((2 ^ 256 - 1 : Nat) : ℚ) ((size : ℚ) / total) accounts
    fun a ha => C184_mean a.1 total size hst a.2 (h a ha)
  have ht : (total : ℚ) ≠ 0 := by exact_mod_cast hpos.ne'
  rw [hsum, mul_div_cancel₀ _ ht] at key
  exact key

/-- The sortition has a result for every draw. -/
theorem C184_total (m total size : Nat) (hst : size ≤ total) : ∃ seats, SeatsOf m total size seats := by
  have h : ∀ t, ∃ w, t < 2 ^ 256 → ∃ out : Bytes, out.length = 32 ∧ ofBE out = t ∧ select ideal m total (size : ℚ) out = .ok w := by
    intro t
    by_cases ht : t < 2 ^ 256
    · have hlen : (minBytes t).length ≤ 32 := minBytes_len t 31 (lt_of_lt_of_eq ht (by norm_num))
      have hl : (List.replicate (32 - (minBytes t).length) 0 ++ minBytes t).length = 32 := by simp; omega
      obtain ⟨w, hw, _⟩ := C57_exact m total size _ hst hl
      exact ⟨w, fun _ => ⟨_, hl, by rw [beVal_zeros, minBytes_val], hw⟩⟩
    · exact ⟨0, fun h => absurd h ht⟩
  exact ⟨fun t => (h t).choose, fun t => (h t).choose_spec⟩

/-- Stake five, as one account or as accounts with two and three, in a committee of three seats out of ten. -/
example : ∃ one two : List (Nat × (Nat → Nat)), one.map Prod.fst = [5] ∧ two.map Prod.fst = [2, 3] ∧
    AllSeats 10 3 one ∧ AllSeats 10 3 two ∧ (one.map Prod.fst).sum = (two.map Prod.fst).sum := by
  obtain ⟨w, hw⟩ := C184_total 5 10 3 (by decide)
  obtain ⟨a, ha⟩ := C184_total 2 10 3 (by decide)
  obtain ⟨b, hb⟩ := C184_total 3 10 3 (by decide)
  refine ⟨[(5, w)], [(2, a), (3, b)], rfl, rfl, ?_, ?_, rfl⟩
  · intro x hx; simp only [List.mem_singleton] at hx; subst hx; exact hw
  · intro x hx; simp only [List.mem_cons, List.not_mem_nil, or_false] at hx; rcases hx with rfl | rfl <;> assumption

/-- Ten units in accounts with four and six units, in a committee of three seats. -/
example : ∃ accounts : List (Nat × (Nat → Nat)), accounts.map Prod.fst = [4, 6] ∧ AllSeats 10 3 accounts ∧
    (accounts.map Prod.fst).sum = 10 := by
  obtain ⟨a, ha⟩ := C184_total 4 10 3 (by decide)
  obtain ⟨b, hb⟩ := C184_total 6 10 3 (by decide)
  refine ⟨[(4, a), (6, b)], rfl, ?_, rfl⟩
  intro x hx; simp only [List.mem_cons, List.not_mem_nil, or_false] at hx; rcases hx with rfl | rfl <;> assumption

/-- At most one seat, for two units out of four in a committee of two seats: three draws in four. -/
example : Binomial.cdf ((2 : ℚ) / 4) 2 1 = 3 / 4 := by norm_num [Binomial.cdf, sum_range_succ, Nat.choose]

/-- Two accounts and four draws each: both have a seat in one draw out of four, and at most one seat together in fifteen
pairs of draws out of sixteen. -/
example : waysAtMost 4 [fun t => if t = 3 then 1 else 0, fun t => if t = 3 then 1 else 0] 1 = 15 := by decide

end Verif.Props
