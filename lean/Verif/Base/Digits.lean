/-!
# Little-endian digit lists
-/

namespace Verif.Digits

/-- Value of a little-endian digit list in base `B`. -/
def val (B : Nat) : List Nat → Nat
  | [] => 0
  | d :: ds => d + B * val B ds

@[simp] theorem val_nil (B : Nat) : val B [] = 0 := rfl
@[simp] theorem val_cons (B d : Nat) (ds : List Nat) : val B (d :: ds) = d + B * val B ds := rfl

theorem val_append (B : Nat) (a b : List Nat) :
    val B (a ++ b) = val B a + B ^ a.length * val B b := by
  induction a with
  | nil => simp
  | cons d a ih =>
    simp only [List.cons_append, val_cons, ih, List.length_cons, Nat.pow_succ, Nat.mul_add]
    rw [Nat.mul_comm (B ^ a.length) B, Nat.mul_assoc]
    omega

theorem val_concat (B d : Nat) (a : List Nat) :
    val B (a ++ [d]) = val B a + B ^ a.length * d := by
  rw [val_append]; simp

theorem val_lt (B : Nat) (a : List Nat) (h : ∀ d ∈ a, d < B) :
    val B a < B ^ a.length := by
  induction a with
  | nil => simp
  | cons d a ih =>
    have h1 := h d List.mem_cons_self
    have h2 := ih (fun x hx => h x (List.mem_cons_of_mem _ hx))
    have h3 : B * (val B a + 1) ≤ B * B ^ a.length := Nat.mul_le_mul_left B h2
    simp only [val_cons, List.length_cons, Nat.pow_succ]
    rw [Nat.mul_comm (B ^ a.length) B]
    rw [Nat.mul_add, Nat.mul_one] at h3
    omega

theorem val_inj (B : Nat) (a b : List Nat) (hl : a.length = b.length)
    (ha : ∀ d ∈ a, d < B) (hb : ∀ d ∈ b, d < B) (h : val B a = val B b) : a = b := by
  induction a generalizing b with
  | nil => cases b with
    | nil => rfl
    | cons => simp at hl
  | cons d a ih =>
    cases b with
    | nil => simp at hl
    | cons e b =>
      have hd := ha d List.mem_cons_self
      have he := hb e List.mem_cons_self
      simp only [val_cons] at h
      have h1 : d = e := by
        have := congrArg (· % B) h
        simpa [Nat.add_mul_mod_self_left, Nat.mod_eq_of_lt hd, Nat.mod_eq_of_lt he] using this
      subst h1
      have h2 : val B a = val B b := by
        have : B * val B a = B * val B b := by omega
        exact Nat.eq_of_mul_eq_mul_left (by omega) this
      rw [ih b (by simpa using hl) (fun x hx => ha x (List.mem_cons_of_mem _ hx))
        (fun x hx => hb x (List.mem_cons_of_mem _ hx)) h2]

theorem getElem?_eq_digit (B : Nat) (a : List Nat) (h : ∀ d ∈ a, d < B) (i : Nat)
    (hi : i < a.length) : a[i]? = some (val B a / B ^ i % B) := by
  induction a generalizing i with
  | nil => simp at hi
  | cons d a ih =>
    have hd := h d List.mem_cons_self
    have hB : 0 < B := by omega
    cases i with
    | zero =>
      simp only [List.getElem?_cons_zero, val_cons, Nat.pow_zero, Nat.div_one,
        Nat.add_mul_mod_self_left, Nat.mod_eq_of_lt hd]
    | succ i =>
      rw [List.getElem?_cons_succ, ih (fun x hx => h x (List.mem_cons_of_mem _ hx)) i
        (by simpa using hi)]
      rw [val_cons, Nat.pow_succ, Nat.mul_comm (B ^ i) B, ← Nat.div_div_eq_div_mul,
        Nat.add_mul_div_left _ _ hB, Nat.div_eq_of_lt hd, Nat.zero_add]

end Verif.Digits
