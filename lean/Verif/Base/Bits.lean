import Mathlib.Data.List.Basic
/-!
# Big-endian bit strings
-/

namespace Verif.Bits

/-- The low `w` bits of `n`, most significant first. -/
def natBits : Nat → Nat → List Bool
  | 0, _ => []
  | w + 1, n => natBits w (n / 2) ++ [decide (n % 2 = 1)]

/-- Value of a big-endian bit string. -/
def bitsVal (l : List Bool) : Nat := l.foldl (fun a b => 2 * a + b.toNat) 0

@[simp] theorem natBits_length (w n : Nat) : (natBits w n).length = w := by
  induction w generalizing n with
  | zero => rfl
  | succ w ih => simp [natBits, ih]

theorem bitsVal_concat (l : List Bool) (b : Bool) : bitsVal (l ++ [b]) = 2 * bitsVal l + b.toNat := by
  simp [bitsVal]

theorem bitsVal_natBits (w n : Nat) (h : n < 2 ^ w) : bitsVal (natBits w n) = n := by
  induction w generalizing n with
  | zero => simp at h; subst h; rfl
  | succ w ih =>
    rw [natBits, bitsVal_concat, ih (n / 2) (by rw [Nat.pow_succ] at h; omega)]
    rcases Nat.mod_two_eq_zero_or_one n with e | e <;> simp [e] <;> omega

theorem natBits_bitsVal (w : Nat) (l : List Bool) (h : l.length = w) : natBits w (bitsVal l) = l := by
  induction w generalizing l with
  | zero => rw [List.length_eq_zero_iff] at h; subst h; rfl
  | succ w ih =>
    have hne : l ≠ [] := by intro e; subst e; simp at h
    obtain ⟨i, b, rfl⟩ : ∃ i b, l = i ++ [b] :=
      ⟨_, _, (List.dropLast_append_getLast hne).symm⟩
    have hi : i.length = w := by simpa using h
    rw [natBits, bitsVal_concat]
    have h1 : (2 * bitsVal i + b.toNat) / 2 = bitsVal i := by cases b <;> simp <;> omega
    rw [h1, ih i hi]
    cases b <;> simp <;> omega

theorem bitsVal_lt (l : List Bool) : bitsVal l < 2 ^ l.length := by
  have : ∀ (w : Nat) (l : List Bool), l.length = w → bitsVal l < 2 ^ w := by
    intro w
    induction w with
    | zero => intro l h; rw [List.length_eq_zero_iff] at h; subst h; decide
    | succ w ih =>
      intro l h
      have hne : l ≠ [] := by intro e; subst e; simp at h
      obtain ⟨i, b, rfl⟩ : ∃ i b, l = i ++ [b] :=
        ⟨_, _, (List.dropLast_append_getLast hne).symm⟩
      have := ih i (by simpa using h)
      rw [bitsVal_concat, Nat.pow_succ]
      cases b <;> simp <;> omega
  exact this _ l rfl

end Verif.Bits
