import Mathlib.NumberTheory.LucasPrimality
import Mathlib.Algebra.BigOperators.Group.List.Basic
import Mathlib.Tactic.NormNum.Prime
/-!
# The primes of Curve25519

The size of the field, `2^255 - 19`, and the order of the base point are prime: Pratt certificates, checked by the kernel.
-/

namespace Verif.Curve

/-- `a ^ e % m` by squaring; `f` bounds the number of digits of `e`. -/
def powMod (m : Nat) : Nat → Nat → Nat → Nat
  | 0, _, _ => 1 % m
  | f + 1, a, e => if e % 2 = 1 then a * powMod m f (a * a % m) (e / 2) % m else powMod m f (a * a % m) (e / 2)

theorem powMod_eq (m : Nat) : ∀ f a e : Nat, e < 2 ^ f → powMod m f a e = a ^ e % m
  | 0, a, e, h => by
    have : e = 0 := by omega
    subst this
    rfl
  | f + 1, a, e, h => by
    have hlt : e / 2 < 2 ^ f := by rw [pow_succ] at h; omega
    have ih := powMod_eq m f (a * a % m) (e / 2) hlt
    have hsq : (a * a % m) ^ (e / 2) % m = (a ^ (2 * (e / 2))) % m := by
      rw [← Nat.pow_mod, pow_mul, pow_two]
    rw [powMod, ih, hsq]
    have e2 : e = 2 * (e / 2) + e % 2 := by omega
    split
    · next h1 =>
      rw [h1] at e2
      conv => rhs; rw [e2, pow_succ]
      rw [Nat.mul_mod_mod, mul_comm]
    · next h1 =>
      have : e = 2 * (e / 2) := by omega
      rw [← this]

/-- Lucas' criterion with a list of the prime factors of `n - 1`. -/
theorem prime_of_cert (n a : Nat) (fs : List Nat) (hfs : ∀ q ∈ fs, q.Prime) (hn : 2 ≤ n) (hsize : n < 2 ^ 256)
    (hprod : fs.prod = n - 1) (h1 : powMod n 256 a (n - 1) = 1)
    (h2 : ∀ q ∈ fs, powMod n 256 a ((n - 1) / q) ≠ 1) : n.Prime := by
  have cast : ∀ e, e < 2 ^ 256 → (((a : Nat) : ZMod n) ^ e = 1 ↔ powMod n 256 a e = 1) := by
    intro e he
    rw [powMod_eq n 256 a e he, ← Nat.cast_pow, ← Nat.cast_one, ZMod.natCast_eq_natCast_iff', Nat.one_mod_eq_one.2 (by omega)]
  refine lucas_primality n (a : Nat) ((cast _ (by omega)).2 h1) fun q hq hd h => ?_
  have hmem : q ∈ fs := by
    rw [← hprod] at hd
    obtain ⟨f, hf, hqf⟩ := (Prime.dvd_prod_iff hq.prime).1 hd
    rwa [(Nat.prime_dvd_prime_iff_eq hq (hfs f hf)).1 hqf]
  exact h2 q hmem ((cast _ (Nat.lt_of_le_of_lt (Nat.div_le_self _ _) (by omega))).1 h)

theorem prime_0 : Nat.Prime 31757755568855353 := by
  refine prime_of_cert _ 10 [2, 2, 2, 3, 31, 107, 223, 4153, 430751] ?_ (by norm_num) (by norm_num)
    (by decide +kernel) (by decide +kernel) (by decide +kernel)
  simp only [List.forall_mem_cons, List.not_mem_nil, false_implies, implies_true, and_true]
  exact ⟨(by norm_num), (by norm_num), (by norm_num), (by norm_num), (by norm_num), (by norm_num), (by norm_num), (by norm_num), (by norm_num)⟩

theorem prime_1 : Nat.Prime 2773320623 := by
  refine prime_of_cert _ 5 [2, 2437, 569003] ?_ (by norm_num) (by norm_num)
    (by decide +kernel) (by decide +kernel) (by decide +kernel)
  simp only [List.forall_mem_cons, List.not_mem_nil, false_implies, implies_true, and_true]
  exact ⟨(by norm_num), (by norm_num), (by norm_num)⟩

theorem prime_2 : Nat.Prime 72106336199 := by
  refine prime_of_cert _ 7 [2, 13, 2773320623] ?_ (by norm_num) (by norm_num)
    (by decide +kernel) (by decide +kernel) (by decide +kernel)
  simp only [List.forall_mem_cons, List.not_mem_nil, false_implies, implies_true, and_true]
  exact ⟨(by norm_num), (by norm_num), prime_1⟩

theorem prime_3 : Nat.Prime 1919519569386763 := by
  refine prime_of_cert _ 2 [2, 3, 7, 19, 47, 47, 127, 8574133] ?_ (by norm_num) (by norm_num)
    (by decide +kernel) (by decide +kernel) (by decide +kernel)
  simp only [List.forall_mem_cons, List.not_mem_nil, false_implies, implies_true, and_true]
  exact ⟨(by norm_num), (by norm_num), (by norm_num), (by norm_num), (by norm_num), (by norm_num), (by norm_num), (by norm_num)⟩

theorem prime_4 : Nat.Prime 75445702479781427272750846543864801 := by
  refine prime_of_cert _ 7 [2, 2, 2, 2, 2, 3, 3, 5, 5, 75707, 72106336199, 1919519569386763] ?_ (by norm_num) (by norm_num)
    (by decide +kernel) (by decide +kernel) (by decide +kernel)
  simp only [List.forall_mem_cons, List.not_mem_nil, false_implies, implies_true, and_true]
  exact ⟨(by norm_num), (by norm_num), (by norm_num), (by norm_num), (by norm_num), (by norm_num), (by norm_num), (by norm_num), (by norm_num), (by norm_num), prime_2, prime_3⟩

theorem prime_5 : Nat.Prime 74058212732561358302231226437062788676166966415465897661863160754340907 := by
  refine prime_of_cert _ 2 [2, 3, 353, 57467, 132049, 1923133, 31757755568855353, 75445702479781427272750846543864801] ?_ (by norm_num) (by norm_num)
    (by decide +kernel) (by decide +kernel) (by decide +kernel)
  simp only [List.forall_mem_cons, List.not_mem_nil, false_implies, implies_true, and_true]
  exact ⟨(by norm_num), (by norm_num), (by norm_num), (by norm_num), (by norm_num), (by norm_num), prime_0, prime_4⟩

theorem prime_p : Nat.Prime 57896044618658097711785492504343953926634992332820282019728792003956564819949 := by
  refine prime_of_cert _ 2 [2, 2, 3, 65147, 74058212732561358302231226437062788676166966415465897661863160754340907] ?_ (by norm_num) (by norm_num)
    (by decide +kernel) (by decide +kernel) (by decide +kernel)
  simp only [List.forall_mem_cons, List.not_mem_nil, false_implies, implies_true, and_true]
  exact ⟨(by norm_num), (by norm_num), (by norm_num), (by norm_num), prime_5⟩

theorem prime_7 : Nat.Prime 58964693 := by
  refine prime_of_cert _ 2 [2, 2, 14741173] ?_ (by norm_num) (by norm_num)
    (by decide +kernel) (by decide +kernel) (by decide +kernel)
  simp only [List.forall_mem_cons, List.not_mem_nil, false_implies, implies_true, and_true]
  exact ⟨(by norm_num), (by norm_num), (by norm_num)⟩

theorem prime_8 : Nat.Prime 3044861653679985063343 := by
  refine prime_of_cert _ 5 [2, 3, 11, 30703, 82163, 132667, 137849] ?_ (by norm_num) (by norm_num)
    (by decide +kernel) (by decide +kernel) (by decide +kernel)
  simp only [List.forall_mem_cons, List.not_mem_nil, false_implies, implies_true, and_true]
  exact ⟨(by norm_num), (by norm_num), (by norm_num), (by norm_num), (by norm_num), (by norm_num), (by norm_num)⟩

theorem prime_9 : Nat.Prime 198211423230930754013084525763697 := by
  refine prime_of_cert _ 5 [2, 2, 2, 2, 3, 23, 58964693, 3044861653679985063343] ?_ (by norm_num) (by norm_num)
    (by decide +kernel) (by decide +kernel) (by decide +kernel)
  simp only [List.forall_mem_cons, List.not_mem_nil, false_implies, implies_true, and_true]
  exact ⟨(by norm_num), (by norm_num), (by norm_num), (by norm_num), (by norm_num), (by norm_num), prime_7, prime_8⟩

theorem prime_10 : Nat.Prime 292386187 := by
  refine prime_of_cert _ 2 [2, 3, 3, 3, 3, 307, 5879] ?_ (by norm_num) (by norm_num)
    (by decide +kernel) (by decide +kernel) (by decide +kernel)
  simp only [List.forall_mem_cons, List.not_mem_nil, false_implies, implies_true, and_true]
  exact ⟨(by norm_num), (by norm_num), (by norm_num), (by norm_num), (by norm_num), (by norm_num), (by norm_num)⟩

theorem prime_11 : Nat.Prime 213441916511 := by
  refine prime_of_cert _ 13 [2, 5, 73, 292386187] ?_ (by norm_num) (by norm_num)
    (by decide +kernel) (by decide +kernel) (by decide +kernel)
  simp only [List.forall_mem_cons, List.not_mem_nil, false_implies, implies_true, and_true]
  exact ⟨(by norm_num), (by norm_num), (by norm_num), prime_10⟩

theorem prime_12 : Nat.Prime 1257559732178653 := by
  refine prime_of_cert _ 2 [2, 2, 3, 7, 23, 531581, 1224481] ?_ (by norm_num) (by norm_num)
    (by decide +kernel) (by decide +kernel) (by decide +kernel)
  simp only [List.forall_mem_cons, List.not_mem_nil, false_implies, implies_true, and_true]
  exact ⟨(by norm_num), (by norm_num), (by norm_num), (by norm_num), (by norm_num), (by norm_num), (by norm_num)⟩

theorem prime_13 : Nat.Prime 4434155615661930479 := by
  refine prime_of_cert _ 17 [2, 41, 43, 1257559732178653] ?_ (by norm_num) (by norm_num)
    (by decide +kernel) (by decide +kernel) (by decide +kernel)
  simp only [List.forall_mem_cons, List.not_mem_nil, false_implies, implies_true, and_true]
  exact ⟨(by norm_num), (by norm_num), (by norm_num), prime_12⟩

theorem prime_14 : Nat.Prime 172054593956031949258510691 := by
  refine prime_of_cert _ 2 [2, 5, 1361, 2851, 4434155615661930479] ?_ (by norm_num) (by norm_num)
    (by decide +kernel) (by decide +kernel) (by decide +kernel)
  simp only [List.forall_mem_cons, List.not_mem_nil, false_implies, implies_true, and_true]
  exact ⟨(by norm_num), (by norm_num), (by norm_num), (by norm_num), prime_13⟩

theorem prime_15 : Nat.Prime 19757330305831588566944191468367130476339 := by
  refine prime_of_cert _ 2 [2, 269, 213441916511, 172054593956031949258510691] ?_ (by norm_num) (by norm_num)
    (by decide +kernel) (by decide +kernel) (by decide +kernel)
  simp only [List.forall_mem_cons, List.not_mem_nil, false_implies, implies_true, and_true]
  exact ⟨(by norm_num), (by norm_num), prime_11, prime_14⟩

theorem prime_16 : Nat.Prime 276602624281642239937218680557139826668747 := by
  refine prime_of_cert _ 2 [2, 7, 19757330305831588566944191468367130476339] ?_ (by norm_num) (by norm_num)
    (by decide +kernel) (by decide +kernel) (by decide +kernel)
  simp only [List.forall_mem_cons, List.not_mem_nil, false_implies, implies_true, and_true]
  exact ⟨(by norm_num), (by norm_num), prime_15⟩

theorem prime_l : Nat.Prime 7237005577332262213973186563042994240857116359379907606001950938285454250989 := by
  refine prime_of_cert _ 2 [2, 2, 3, 11, 198211423230930754013084525763697, 276602624281642239937218680557139826668747] ?_ (by norm_num) (by norm_num)
    (by decide +kernel) (by decide +kernel) (by decide +kernel)
  simp only [List.forall_mem_cons, List.not_mem_nil, false_implies, implies_true, and_true]
  exact ⟨(by norm_num), (by norm_num), (by norm_num), (by norm_num), prime_9, prime_16⟩

end Verif.Curve
