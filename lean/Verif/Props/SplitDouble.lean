import Verif.Props.Split
import Verif.Props.Double
/-!
# C184 in double precision
-/
namespace Verif.Props
open Verif Verif.Committee Verif.Double Verif.Msgpack Finset

/-- `seats t` is the number of seats that the sortition in double precision gives for the draw with number `t`. -/
def SeatsOfDouble (cdf : Dbl → Nat → Nat → Dbl) (m total size : Nat) (seats : Nat → Nat) : Prop :=
  ∀ t, t < 2 ^ 256 → ∃ out : Bytes, out.length = 32 ∧ ofBE out = t ∧
    select (doubles cdf) m total (ofU64 size) out = .ok (seats t)

theorem card_shift (N k : Nat) (A B : Nat → Prop) [DecidablePred A] [DecidablePred B]
    (h : ∀ t, t + k < N → A t → B (t + k)) : ((range N).filter A).card ≤ ((range N).filter B).card + k := by
  have h1 : (range N).filter A ⊆ ((range N).filter fun t => A t ∧ t + k < N) ∪ Ico (N - k) N := by
    intro t ht
    simp only [mem_filter, mem_range, mem_union, mem_Ico] at ht ⊢
    by_cases hk : t + k < N
    · exact .inl ⟨ht.1, ht.2, hk⟩
    · exact .inr ⟨by omega, ht.1⟩
  have h2 : ((range N).filter fun t => A t ∧ t + k < N).card ≤ ((range N).filter B).card := by
    refine card_le_card_of_injOn (· + k) ?_ ?_
    · intro t ht
      simp only [coe_filter, mem_range, Set.mem_ofPred_eq] at ht ⊢
      exact ⟨ht.2.2, h t ht.2.2 ht.2.1⟩
    · intro a _ b _ hab; simpa using hab
  have h3 : (Ico (N - k) N).card ≤ k := by rw [Nat.card_Ico]; omega
  exact (card_le_card h1).trans ((card_union_le _ _).trans (by omega))

/-- What double precision, with a distribution function accurate up to `ε`, may add to the distribution of one account. -/
def doubleError (ε : ℚ) (total size m : Nat) : ℚ := ε + m * ((size : ℚ) / total) / 2 ^ 51 + 1 / 2 ^ 53

theorem accurate_nonneg {cdf : Dbl → Nat → Nat → Dbl} {ε : ℚ} (h : Accurate cdf ε) : 0 ≤ ε := by
  obtain ⟨c, _, hc⟩ := h 0 0 0 ⟨0, 0, by norm_num, by norm_num⟩ le_rfl (by norm_num)
  exact (abs_nonneg _).trans hc

theorem share_double (cdf : Dbl → Nat → Nat → Dbl) (ε : ℚ) (hacc : Accurate cdf ε) (m total size : Nat) (ht : 0 < total)
    (hst : size ≤ total) (seats : Nat → Nat) (h : SeatsOfDouble cdf m total size seats) (j : Nat) :
    |(((range (2 ^ 256)).filter (fun t => seats t ≤ j)).card : ℚ) / 2 ^ 256 - Binomial.cdf ((size : ℚ) / total) m j| ≤
      doubleError ε total size m + 2 / 2 ^ 256 := by
  obtain ⟨seats', h'⟩ := C184_total m total size hst
  have hs := share_at_most m total size hst seats' h' j
  have hδ : 0 ≤ doubleError ε total size m := by
    have := accurate_nonneg hacc
    unfold doubleError; positivity
  have hclose : ∀ t t' : Nat, t < 2 ^ 256 → t' < 2 ^ 256 →
      ((t : ℚ) / ((2 ^ 256 - 1 : Nat) : ℚ) + doubleError ε total size m ≤ (t' : ℚ) / ((2 ^ 256 - 1 : Nat) : ℚ) → seats t ≤ seats' t') ∧
      ((t' : ℚ) / ((2 ^ 256 - 1 : Nat) : ℚ) + doubleError ε total size m < (t : ℚ) / ((2 ^ 256 - 1 : Nat) : ℚ) → seats' t' ≤ seats t) := by
    intro t t' h1 h2
    obtain ⟨out, l1, e1, w1⟩ := h t h1
    obtain ⟨out', l2, e2, w2⟩ := h' t' h2
    have := C182_close cdf ε hacc m total size ht hst out l1 _ w1
    rw [e1] at this
    rw [← e2] at w2 ⊢
    exact ⟨this.1 out' _ l2 w2, this.2 out' _ l2 w2⟩
  generalize doubleError ε total size m = δ at *
  generalize Binomial.cdf ((size : ℚ) / total) m j = c at *
  clear h h' hacc
  have hN : (2 : ℚ) ^ 256 = ((2 ^ 256 : Nat) : ℚ) := by norm_num
  rw [hN] at hs ⊢
  have hM1 : (2 ^ 256 : Nat) = (2 ^ 256 - 1) + 1 := (Nat.sub_add_cancel Nat.one_le_two_pow).symm
  have hMpos : 0 < (2 ^ 256 - 1 : Nat) := by norm_num
  clear hN
  revert hclose hs hM1 hMpos
  generalize (2 ^ 256 - 1 : Nat) = M
  generalize (2 ^ 256 : Nat) = N
  intro hclose hs hM1 hMpos
  have hMq : (0 : ℚ) < M := by exact_mod_cast hMpos
  have hNq : (N : ℚ) = M + 1 := by rw [hM1]; push_cast; ring
  have hfl := Nat.lt_floor_add_one (δ * M)
  have hfl' := Nat.floor_le (mul_nonneg hδ hMq.le)
  have hstep : ∀ t : Nat, (t : ℚ) / M + δ < ((t + (⌊δ * M⌋₊ + 1) : Nat) : ℚ) / M := by
    intro t
    rw [lt_div_iff₀ hMq, add_mul, div_mul_cancel₀ _ hMq.ne']
    push_cast
    linarith
  have hA := card_shift N (⌊δ * M⌋₊ + 1) (fun t => seats' t ≤ j → False) (fun t => seats t ≤ j → False) fun t hk hA hc =>
    hA (((hclose _ t hk (by omega)).2 (hstep t)).trans hc)
  have hB := card_shift N (⌊δ * M⌋₊ + 1) (fun t => seats t ≤ j → False) (fun t => seats' t ≤ j → False) fun t hk hA hc =>
    hA (((hclose t _ (by omega) hk).1 (hstep t).le).trans hc)
  have s1 := Finset.card_filter_add_card_filter_not (s := range N) (fun t => seats t ≤ j)
  have s2 := Finset.card_filter_add_card_filter_not (s := range N) (fun t => seats' t ≤ j)
  simp only [← Not.eq_def] at hA hB
  generalize ((range N).filter (fun t => seats t ≤ j)).card = F at *
  generalize ((range N).filter (fun t => seats' t ≤ j)).card = F' at *
  have q1 : (F : ℚ) ≤ F' + (δ * M + 1) := by
    have : F ≤ F' + (⌊δ * M⌋₊ + 1) := by omega
    have : (F : ℚ) ≤ F' + (⌊δ * M⌋₊ + 1) := by exact_mod_cast this
    linarith
  have q2 : (F' : ℚ) ≤ F + (δ * M + 1) := by
    have : F' ≤ F + (⌊δ * M⌋₊ + 1) := by omega
    have : (F' : ℚ) ≤ F + (⌊δ * M⌋₊ + 1) := by exact_mod_cast this
    linarith
  have hNpos : (0 : ℚ) < N := by rw [hNq]; linarith
  have q3 : |(F : ℚ) / N - F' / N| ≤ δ + 1 / N := by
    rw [← sub_div, abs_div, abs_of_pos hNpos, div_le_iff₀ hNpos, add_mul, one_div, inv_mul_cancel₀ hNpos.ne', abs_le, hNq]
    constructor <;> linarith
  have := (abs_sub_le ((F : ℚ) / N) (F' / N) c).trans (add_le_add q3 hs)
  have e : δ + 1 / (N : ℚ) + 1 / N = δ + 2 / N := by ring
  rwa [e] at this

/-- C184: in double precision, with a distribution function accurate up to `ε`, the share of the draws in which several
accounts have at most `j` seats together is the binomial probability for the sum of their stakes, up to `ε` and a little
more than 2^-53 for every account and 2^-51 of the seats that they expect together. -/
theorem C184_divided_double (cdf : Dbl → Nat → Nat → Dbl) (ε : ℚ) (hacc : Accurate cdf ε) (total size : Nat) (ht : 0 < total)
    (hst : size ≤ total) (accounts : List (Nat × (Nat → Nat))) (h : ∀ a ∈ accounts, SeatsOfDouble cdf a.1 total size a.2)
    (j : Nat) :
    |((waysAtMost (2 ^ 256) (accounts.map Prod.snd) j : Nat) : ℚ) / (2 ^ 256) ^ accounts.length -
      Binomial.cdf ((size : ℚ) / total) (accounts.map Prod.fst).sum j| ≤
      accounts.length * (ε + 1 / 2 ^ 53 + 2 / 2 ^ 256) + (accounts.map Prod.fst).sum * ((size : ℚ) / total) / 2 ^ 51 := by
  have hs : ∀ a ∈ accounts, ∀ j, _ := fun a ha => share_double cdf ε hacc a.1 total size ht hst a.2 (h a ha)
  have hsum : (accounts.map fun a => doubleError ε total size a.1 + 2 / 2 ^ 256).sum =
      accounts.length * (ε + 1 / 2 ^ 53 + 2 / 2 ^ 256) + (accounts.map Prod.fst).sum * ((size : ℚ) / total) / 2 ^ 51 := by
    clear h hs
    generalize (2 : ℚ) / 2 ^ 256 = z
    induction accounts with
    | nil => simp
    | cons a rest ih =>
      rw [List.map_cons, List.sum_cons, ih, List.map_cons, List.sum_cons, List.length_cons, doubleError, Nat.cast_add, Nat.cast_add]
      generalize ((rest.map Prod.fst).sum : ℚ) = S
      push_cast
      ring
  rw [← hsum]
  have hN : (2 : ℚ) ^ 256 = ((2 ^ 256 : Nat) : ℚ) := by norm_num
  have hpos : 0 < 2 ^ 256 := Nat.two_pow_pos 256
  clear hsum h
  rw [hN] at hs ⊢
  clear hN
  revert hs hpos
  generalize (2 ^ 256 : Nat) = N
  intro hs hpos
  exact divided_aux _ (prob_bounds hst) N hpos (fun m => doubleError ε total size m + 2 / N) accounts hs j

/-- The sortition in double precision has a result for every draw. -/
theorem C184_total_double (cdf : Dbl → Nat → Nat → Dbl) (m total size : Nat) (ht : 0 < total) (hst : size ≤ total) :
    ∃ seats, SeatsOfDouble cdf m total size seats := by
  have h : ∀ t, ∃ w, t < 2 ^ 256 → ∃ out : Bytes, out.length = 32 ∧ ofBE out = t ∧
      select (doubles cdf) m total (ofU64 size) out = .ok w := by
    intro t
    by_cases hlt : t < 2 ^ 256
    · have hlen : (minBytes t).length ≤ 32 := minBytes_len t 31 (lt_of_lt_of_eq hlt (by norm_num))
      have hl : (List.replicate (32 - (minBytes t).length) 0 ++ minBytes t).length = 32 := by simp; omega
      obtain ⟨w, hw, _⟩ := C182_returns cdf m total size (List.replicate (32 - (minBytes t).length) 0 ++ minBytes t) ht hst
      exact ⟨w, fun _ => ⟨_, hl, by rw [beVal_zeros, minBytes_val], hw⟩⟩
    · exact ⟨0, fun h => absurd h hlt⟩
  exact ⟨fun t => (h t).choose, fun t => (h t).choose_spec⟩

/-- A distribution function that rounds the exact value, and stakes of two and three out of ten. -/
example : ∃ (cdf : Dbl → Nat → Nat → Dbl) (accounts : List (Nat × (Nat → Nat))), Accurate cdf (1 / 2 ^ 53) ∧
    accounts.map Prod.fst = [2, 3] ∧ ∀ a ∈ accounts, SeatsOfDouble cdf a.1 10 3 a.2 := by
  let cdf : Dbl → Nat → Nat → Dbl := fun p n j => match p with
    | .num p => .num (rnd (Binomial.cdf p n j))
    | x => x
  obtain ⟨a, ha⟩ := C184_total_double cdf 2 10 3 (by decide) (by decide)
  obtain ⟨b, hb⟩ := C184_total_double cdf 3 10 3 (by decide) (by decide)
  refine ⟨cdf, [(2, a), (3, b)], ?_, rfl, ?_⟩
  · intro p n j _ h0 h1
    exact ⟨_, rfl, le_trans (rnd_error (Binomial.cdf_nonneg h0 h1 n j))
      (div_le_div_of_nonneg_right (Binomial.cdf_le_one h0 h1 n j) (by norm_num))⟩
  · intro x hx; simp only [List.mem_cons, List.not_mem_nil, or_false] at hx; rcases hx with rfl | rfl <;> assumption

end Verif.Props
