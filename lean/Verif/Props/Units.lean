import Verif.Model.Units
/-!
# C25, C26: round arithmetic
-/

namespace Verif.Props
open Verif Verif.Units

/-- Specification: the first round that belongs to an identifier, for a given dilution. -/
def roundOf (d : Nat) (id : OtsId) : Nat := d * id.batch + id.offset

/-- Specification: lexicographic order on identifiers. -/
def idLt (a b : OtsId) : Prop := a.batch < b.batch ∨ (a.batch = b.batch ∧ a.offset < b.offset)

/-- C25: for every positive dilution the identifier exists, its offset is a valid
key number inside the batch, it determines the round, and it is the only such
identifier. -/
theorem C25_ots_id_unique (round d : Nat) (hd : 0 < d) :
    ∃ id, otsId round d = .ok id ∧ id.offset < d ∧ roundOf d id = round ∧
      ∀ id', id'.offset < d → roundOf d id' = round → id' = id := by
  refine ⟨⟨round / d, round % d⟩, ?_, Nat.mod_lt _ hd, ?_, ?_⟩
  · simp [otsId, divU, modU, Nat.pos_iff_ne_zero.mp hd]
  · simp [roundOf, Nat.div_add_mod]
  · rintro ⟨b, o⟩ ho hr
    simp only [roundOf] at ho hr
    subst hr
    have h1 : (d * b + o) / d = b := by
      rw [Nat.mul_add_div hd, Nat.div_eq_of_lt ho, Nat.add_zero]
    have h2 : (d * b + o) % d = o := by
      rw [Nat.mul_add_mod, Nat.mod_eq_of_lt ho]
    simp [h1, h2]

example : otsId 23 10 = .ok ⟨2, 3⟩ ∧ 0 < 10 := by decide

/-- C25: identifiers are ordered lexicographically exactly as the rounds are. -/
theorem C25_ots_id_monotone (r₁ r₂ d : Nat) (id₁ id₂ : OtsId)
    (h₁ : otsId r₁ d = .ok id₁) (h₂ : otsId r₂ d = .ok id₂) :
    idLt id₁ id₂ ↔ r₁ < r₂ := by
  by_cases hd : d = 0
  · simp [otsId, divU, hd] at h₁
  have hd' : 0 < d := Nat.pos_of_ne_zero hd
  simp [otsId, divU, modU, hd] at h₁ h₂
  subst h₁ h₂
  have e1 := Nat.div_add_mod r₁ d
  have e2 := Nat.div_add_mod r₂ d
  have l1 := Nat.mod_lt r₁ hd'
  have l2 := Nat.mod_lt r₂ hd'
  simp only [idLt]
  constructor
  · rintro (h | ⟨h, h'⟩)
    · have : d * (r₁ / d + 1) ≤ d * (r₂ / d) := Nat.mul_le_mul_left d h
      rw [Nat.mul_add, Nat.mul_one] at this
      omega
    · rw [h] at e1; omega
  · intro h
    have hle : r₁ / d ≤ r₂ / d := Nat.div_le_div_right (Nat.le_of_lt h)
    rcases Nat.lt_or_eq_of_le hle with h' | h'
    · exact Or.inl h'
    · right; refine ⟨h', ?_⟩; rw [h'] at e1; omega

example : ∃ id₁ id₂, otsId 9 10 = .ok id₁ ∧ otsId 10 10 = .ok id₂ ∧ idLt id₁ id₂ :=
  ⟨⟨0, 9⟩, ⟨1, 0⟩, by decide, by decide, by simp [idLt]⟩

/-- C25: a zero dilution is the only input the mapping cannot handle (it panics). -/
theorem C25_ots_id_panics_iff (round d : Nat) : otsId round d = .panic ↔ d = 0 := by
  by_cases hd : d = 0 <;> simp [otsId, divU, modU, hd]

/-- C26: capped subtraction is exact when possible and otherwise zero. -/
theorem C26_sub_capped (a b : Nat) :
    (b ≤ a → subCapped a b + b = a) ∧ (a ≤ b → subCapped a b = 0) := by
  unfold subCapped
  constructor <;> intro h <;> split <;> omega

/-- C26: rounding up returns the least multiple not below the round, whenever the
intermediate sum fits in 64 bits and the divisor is not zero. -/
theorem C26_round_up_least (a r : Nat) (hr : 0 < r) (hfit : a + r < u64Lim) :
    ∃ m, roundUp a r = .ok m ∧ r ∣ m ∧ a ≤ m ∧ ∀ m', r ∣ m' → a ≤ m' → m ≤ m' := by
  have hdm := Nat.div_add_mod (a + r - 1) r
  have hlt := Nat.mod_lt (a + r - 1) hr
  refine ⟨(a + r - 1) / r * r, ?_, Nat.dvd_mul_left _ _, ?_, ?_⟩
  · have hle : (a + r - 1) / r * r ≤ a + r - 1 := Nat.div_mul_le_self _ _
    have hlt' : (a + r - 1) / r * r < u64Lim := by omega
    have h1 : 1 ≤ a + r := by omega
    simp [roundUp, addU64, hfit, subU, divU, Nat.pos_iff_ne_zero.mp hr, mulU64, hlt', h1]
  · rw [Nat.mul_comm]; omega
  · rintro m' ⟨k, rfl⟩ hle
    have : a + r - 1 < r * (k + 1) := by rw [Nat.mul_add, Nat.mul_one]; omega
    have hk : (a + r - 1) / r < k + 1 := (Nat.div_lt_iff_lt_mul hr).2 (by rwa [Nat.mul_comm])
    rw [Nat.mul_comm r k]
    exact Nat.mul_le_mul_right r (Nat.lt_succ_iff.mp hk)

example : roundUp 24 10 = .ok 30 ∧ (0 < 10 ∧ 24 + 10 < u64Lim) := by decide

/-- C26: the inputs excluded above fail explicitly (they panic); no wrong value is returned. -/
theorem C26_round_up_panics_iff (a r : Nat) :
    roundUp a r = .panic ↔ (r = 0 ∨ u64Lim ≤ a + r) := by
  constructor
  · intro h
    by_cases hr : r = 0
    · exact Or.inl hr
    · by_cases hf : a + r < u64Lim
      · obtain ⟨m, hm, _⟩ := C26_round_up_least a r (Nat.pos_of_ne_zero hr) hf
        rw [hm] at h; cases h
      · exact Or.inr (Nat.le_of_not_lt hf)
  · rintro (rfl | h)
    · simp only [roundUp, addU64, subU, divU]
      split <;> simp
      split <;> simp
    · have : ¬ (a + r < u64Lim) := Nat.not_lt.mpr h
      simp only [roundUp, addU64, this, if_false, Res.panic_bind]

example : roundUp (2 ^ 64 - 1) 10 = .panic := by decide

/-- C98: the number of reward units is the number of whole units contained in the balance,
rounded down; it exists exactly when the unit is not zero (otherwise the division panics). -/
theorem C98_reward_units (algos u q : Nat) :
    rewardUnits algos u = .ok q ↔ u ≠ 0 ∧ q * u ≤ algos ∧ algos < (q + 1) * u := by
  unfold rewardUnits divU
  by_cases hu : u = 0
  · simp [hu]
  · have hpos : 0 < u := Nat.pos_of_ne_zero hu
    simp only [ne_eq, hu, not_false_eq_true, true_and, if_false, Res.ok.injEq]
    constructor
    · rintro rfl
      exact ⟨Nat.div_mul_le_self _ _, by
        have := Nat.lt_div_mul_add (a := algos) hpos
        rw [Nat.add_mul, Nat.one_mul]; exact this⟩
    · rintro ⟨h₁, h₂⟩
      exact Nat.le_antisymm (Nat.lt_succ_iff.mp ((Nat.div_lt_iff_lt_mul hpos).2 h₂))
        ((Nat.le_div_iff_mul_le hpos).2 h₁)

/-- The spec instantiated: one unit is a million microalgos. -/
example : rewardUnits 2999999 1000000 = .ok 2 ∧ (1000000 : Nat) ≠ 0 := by decide

/-- C98: splitting a balance never creates reward units: the parts earn at most as much as the
whole, and at most one unit is lost. -/
theorem C98_reward_units_split (a b u p q t : Nat) (hp : rewardUnits a u = .ok p)
    (hq : rewardUnits b u = .ok q) (ht : rewardUnits (a + b) u = .ok t) :
    p + q ≤ t ∧ t ≤ p + q + 1 := by
  rw [C98_reward_units] at hp hq ht
  obtain ⟨hu, p₁, p₂⟩ := hp
  obtain ⟨-, q₁, q₂⟩ := hq
  obtain ⟨-, t₁, t₂⟩ := ht
  have hpos : 0 < u := Nat.pos_of_ne_zero hu
  constructor
  · have : (p + q) * u < (t + 1) * u := by rw [Nat.add_mul]; omega
    exact Nat.lt_succ_iff.mp (Nat.lt_of_mul_lt_mul_right this)
  · have : t * u < (p + q + 2) * u := by
      have h : (p + q + 2) * u = (p + 1) * u + (q + 1) * u := by
        rw [← Nat.add_mul]; congr 1; omega
      omega
    have := Nat.lt_of_mul_lt_mul_right this
    omega

example : rewardUnits 1500000 1000000 = .ok 1 ∧ rewardUnits 1500000 1000000 = .ok 1 ∧
    rewardUnits 3000000 1000000 = .ok 3 := by decide

/-- C98: a sum of amounts (or of rounds) is exact or the addition panics; it never wraps. -/
theorem C98_add_exact (a b s : Nat) (ha : a < u64Lim) (hb : b < u64Lim) :
    (addAmount a b = .ok s ↔ s = a + b ∧ s < u64Lim) ∧
      (addAmount a b = .panic ↔ u64Lim ≤ a + b) := by
  clear ha hb
  unfold addAmount addU64
  split
  · rename_i h
    refine ⟨⟨fun e => ?_, fun e => ?_⟩, ⟨(fun e => nomatch e), fun e => ?_⟩⟩
    · cases e; exact ⟨rfl, h⟩
    · rw [e.1]
    · omega
  · rename_i h
    refine ⟨⟨(fun e => nomatch e), fun e => ?_⟩, ⟨fun _ => ?_, fun _ => rfl⟩⟩ <;> omega

example : addAmount (2 ^ 63) (2 ^ 63) = .panic ∧ addAmount (2 ^ 63) (2 ^ 63 - 1) = .ok (2 ^ 64 - 1) := by
  decide

end Verif.Props
