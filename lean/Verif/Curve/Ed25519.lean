import Verif.Curve.Primes
import Verif.Curve.Edwards
import Verif.Model.Vrf
import Mathlib.NumberTheory.LegendreSymbol.Basic
import Mathlib.GroupTheory.OrderOfElement
/-!
# Curve25519 in Edwards form

The group behind `ed25519-dalek` and `curve25519-dalek`: the curve `y² - x² = 1 + d·x²·y²` over the field of `2^255 - 19`
elements. It has exactly `8·l` points, `l` prime.
-/

namespace Verif.Curve
open Verif.Edwards

/-- The size of the field, `2^255 - 19`. -/
abbrev fieldSize : Nat := 57896044618658097711785492504343953926634992332820282019728792003956564819949

/-- The order of the base point. -/
abbrev baseOrder : Nat := 7237005577332262213973186563042994240857116359379907606001950938285454250989

theorem fieldSize_eq : fieldSize = 2 ^ 255 - 19 := by norm_num

theorem baseOrder_eq : baseOrder = 2 ^ 252 + 27742317777372353535851937790883648493 := by norm_num

instance : Fact (Nat.Prime fieldSize) := ⟨prime_p⟩

abbrev Fp : Type := ZMod fieldSize

/-- `d = -121665/121666`. -/
abbrev dNat : Nat := 37095705934669439343138083508754565189542113879843219016388785533085940283555

/-- A square root of `-1`. -/
abbrev iNat : Nat := 19681161376707505956807079304988542015446066515923890162744021073123829784752

def dCoeff : Fp := (dNat : Nat)

def iRoot : Fp := (iNat : Nat)

theorem cast_eq {a b : Nat} : ((a : Nat) : Fp) = (b : Nat) ↔ a % fieldSize = b % fieldSize :=
  ZMod.natCast_eq_natCast_iff' a b fieldSize

theorem cast_zero {a : Nat} : ((a : Nat) : Fp) = 0 ↔ a % fieldSize = 0 := by
  have := cast_eq (a := a) (b := 0)
  rwa [Nat.cast_zero, Nat.zero_mod] at this

theorem i_sq : iRoot * iRoot = -1 := by
  have h : ((iNat * iNat + 1 : Nat) : Fp) = 0 := cast_zero.2 (by decide +kernel)
  rw [iRoot]
  push_cast at h ⊢
  linear_combination h

theorem d_value : dCoeff * 121666 = -121665 := by
  have h : ((dNat * 121666 + 121665 : Nat) : Fp) = 0 := cast_zero.2 (by decide +kernel)
  rw [dCoeff]
  push_cast at h ⊢
  linear_combination h

/-- Euler's criterion, evaluated. -/
theorem square_iff (a : Nat) (ha : a % fieldSize ≠ 0) :
    IsSquare ((a : Nat) : Fp) ↔ powMod fieldSize 256 a (fieldSize / 2) = 1 := by
  rw [ZMod.euler_criterion fieldSize (fun h => ha (cast_zero.1 h)), powMod_eq _ _ _ _ (by norm_num), ← Nat.cast_pow,
    ← Nat.cast_one, cast_eq]
  norm_num

theorem d_not_square : ¬ IsSquare dCoeff := by
  rw [dCoeff, square_iff _ (by decide +kernel)]
  decide +kernel

theorem two_ne : (2 : Fp) ≠ 0 := by
  have : ((2 : Nat) : Fp) ≠ 0 := fun h => absurd (cast_zero.1 h) (by decide +kernel)
  exact_mod_cast this

instance : Complete dCoeff := ⟨two_ne, ⟨iRoot, i_sq.symm⟩, d_not_square⟩

/-- The points of the curve. -/
abbrev Pt : Type := Point dCoeff

instance : DecidableEq Pt := fun P Q =>
  decidable_of_iff (P.x = Q.x ∧ P.y = Q.y) ⟨fun h => Point.ext h.1 h.2, fun h => h ▸ ⟨rfl, rfl⟩⟩

/-! ## Multiples, by computation with projective coordinates -/

/-- Projective coordinates of a point. -/
structure Proj where
  x : Nat
  y : Nat
  z : Nat

/-- The addition law without divisions. -/
def Proj.add (a b : Proj) : Proj :=
  let m := a.z * b.z % fieldSize
  let c := a.x * b.x % fieldSize
  let e := a.y * b.y % fieldSize
  let k := dNat * (c * e % fieldSize) % fieldSize
  let f := (m * m + (fieldSize - k)) % fieldSize
  let g := (m * m + k) % fieldSize
  ⟨m * f * ((a.x * b.y + a.y * b.x) % fieldSize) % fieldSize, m * g * (e + c) % fieldSize, f * g % fieldSize⟩

/-- The coordinates stand for the point. -/
structure Rep (t : Proj) (P : Pt) : Prop where
  z : ((t.z : Nat) : Fp) ≠ 0
  x : ((t.x : Nat) : Fp) = P.x * (t.z : Nat)
  y : ((t.y : Nat) : Fp) = P.y * (t.z : Nat)

theorem cast_mod (a : Nat) : ((a % fieldSize : Nat) : Fp) = (a : Nat) := ZMod.natCast_mod a fieldSize

theorem cast_neg_mod (k : Nat) : ((fieldSize - k % fieldSize : Nat) : Fp) = -(k : Nat) := by
  have h : k % fieldSize ≤ fieldSize := (Nat.mod_lt _ (by norm_num)).le
  rw [Nat.cast_sub h, cast_mod, ZMod.natCast_self]
  ring

theorem Rep.add {s t : Proj} {P Q : Pt} (hs : Rep s P) (ht : Rep t Q) : Rep (s.add t) (P + Q) := by
  have h1 := denom_pos_ne P Q
  have h2 := denom_neg_ne P Q
  have hz1 := hs.z
  have hz2 := ht.z
  have hx1 := hs.x
  have hx2 := ht.x
  have hy1 := hs.y
  have hy2 := ht.y
  have hd : ((dNat : Nat) : Fp) = dCoeff := rfl
  have ex : (P + Q).x * (1 + dCoeff * P.x * Q.x * P.y * Q.y) = P.x * Q.y + P.y * Q.x := by
    rw [add_def, add_x, div_mul_cancel₀ _ h1]
  have ey : (P + Q).y * (1 - dCoeff * P.x * Q.x * P.y * Q.y) = P.y * Q.y + P.x * Q.x := by
    rw [add_def, add_y, div_mul_cancel₀ _ h2]
  have hf : (((s.add t).z : Nat) : Fp) = (s.z * t.z : Fp) ^ 2 * (1 - dCoeff * P.x * Q.x * P.y * Q.y) *
      ((s.z * t.z : Fp) ^ 2 * (1 + dCoeff * P.x * Q.x * P.y * Q.y)) := by
    simp only [Proj.add, cast_mod, cast_neg_mod, Nat.cast_mul, Nat.cast_add, hx1, hx2, hy1, hy2, hd]
    ring
  constructor
  · rw [hf]
    exact mul_ne_zero (mul_ne_zero (pow_ne_zero _ (mul_ne_zero hz1 hz2)) h2) (mul_ne_zero (pow_ne_zero _ (mul_ne_zero hz1 hz2)) h1)
  · rw [hf]
    simp only [Proj.add, cast_mod, cast_neg_mod, Nat.cast_mul, Nat.cast_add, hx1, hx2, hy1, hy2, hd]
    linear_combination (-(s.z * t.z : Fp) ^ 4 * (1 - dCoeff * P.x * Q.x * P.y * Q.y)) * ex
  · rw [hf]
    simp only [Proj.add, cast_mod, Nat.cast_mul, Nat.cast_add, hx1, hx2, hy1, hy2, hd]
    linear_combination (-(s.z * t.z : Fp) ^ 4 * (1 + dCoeff * P.x * Q.x * P.y * Q.y)) * ey

/-- `n • t`; `f` bounds the number of digits of `n`. -/
def Proj.mul : Nat → Proj → Nat → Proj
  | 0, _, _ => ⟨0, 1, 1⟩
  | f + 1, t, n => if n % 2 = 1 then t.add (Proj.mul f (t.add t) (n / 2)) else Proj.mul f (t.add t) (n / 2)

theorem Rep.mul : ∀ (f : Nat) {t : Proj} {P : Pt} (n : Nat), Rep t P → n < 2 ^ f → Rep (Proj.mul f t n) (n • P)
  | 0, t, P, n, _, hn => by
    have : n = 0 := by omega
    subst this
    rw [zero_nsmul]
    exact ⟨by simp [Proj.mul], by simp [Proj.mul, zero_def, Point.zero], by simp [Proj.mul, zero_def, Point.zero]⟩
  | f + 1, t, P, n, h, hn => by
    have ih := Rep.mul f (n / 2) (h.add h) (by rw [pow_succ] at hn; omega)
    have e : n = n / 2 * 2 + n % 2 := by omega
    have h2 : (n / 2) • (P + P) = (n / 2 * 2) • P := by rw [mul_nsmul', two_nsmul]
    rw [h2] at ih
    rw [Proj.mul]
    split
    · next h1 =>
      have := h.add ih
      rwa [show P + (n / 2 * 2) • P = n • P by conv => rhs; rw [e, h1, add_nsmul, one_nsmul, add_comm]] at this
    · next h1 => rwa [show n / 2 * 2 = n by omega] at ih

theorem Rep.zero_iff {t : Proj} {P : Pt} (h : Rep t P) : P = 0 ↔ t.x % fieldSize = 0 ∧ t.y % fieldSize = t.z % fieldSize := by
  rw [← cast_zero, ← cast_eq, h.x, h.y]
  constructor
  · rintro rfl
    simp [zero_def, Point.zero]
  · rintro ⟨a, b⟩
    ext
    · exact (mul_eq_zero.1 a).resolve_right h.z
    · exact mul_right_cancel₀ h.z (b.trans (one_mul _).symm)

/-- A point from its coordinates. -/
def ptOf (x y : Nat) (h : y * y % fieldSize = (1 + x * x + dNat * (x * x * (y * y) % fieldSize)) % fieldSize) : Pt :=
  ⟨(x : Nat), (y : Nat), by
    have := cast_eq.2 h
    simp only [Nat.cast_mul, Nat.cast_add, cast_mod, Nat.cast_one] at this
    rw [dCoeff]
    linear_combination this⟩

theorem rep_ptOf (x y : Nat) (h) : Rep ⟨x, y, 1⟩ (ptOf x y h) := ⟨by simp, by simp [ptOf], by simp [ptOf]⟩

/-- The base point, `y = 4/5` and `x` even. -/
def basePoint : Pt := ptOf 15112221349535400772501151409588531511454012693041857206046113283949847762202
  46316835694926478169428394003475163141307993866256225615783033603165251855960 (by decide +kernel)

/-- A point of order eight. -/
def torsionPoint : Pt := ptOf 14399317868200118260347934320527232580618823971194345261214217575416788799818
  55188659117513257062467267217118295137698188065244968500265048394206261417927 (by decide +kernel)

theorem mul_ptOf_zero (x y : Nat) (h) (n : Nat) (hn : n < 2 ^ 256) : n • ptOf x y h = 0 ↔
    (Proj.mul 256 ⟨x, y, 1⟩ n).x % fieldSize = 0 ∧
      (Proj.mul 256 ⟨x, y, 1⟩ n).y % fieldSize = (Proj.mul 256 ⟨x, y, 1⟩ n).z % fieldSize :=
  (Rep.mul 256 n (rep_ptOf x y h) hn).zero_iff

theorem base_order : baseOrder • basePoint = 0 :=
  (mul_ptOf_zero _ _ _ _ (by norm_num)).2 (by decide +kernel)

theorem base_ne : basePoint ≠ 0 := fun h => by
  have := (mul_ptOf_zero _ _ _ 1 (by norm_num)).1 ((one_nsmul _).trans h)
  revert this
  decide +kernel

theorem torsion_order : 8 • torsionPoint = 0 := (mul_ptOf_zero _ _ _ _ (by norm_num)).2 (by decide +kernel)

theorem torsion_ne : 4 • torsionPoint ≠ 0 := fun h => by
  have := (mul_ptOf_zero _ _ _ _ (by norm_num)).1 h
  revert this
  decide +kernel

/-! ## The number of points -/

/-- `d·y² + 1` does not vanish. -/
theorem dy_ne (y : Fp) : dCoeff * y ^ 2 + 1 ≠ 0 := by
  intro h
  have hy : y ≠ 0 := by rintro rfl; simp at h
  refine d_not_square ⟨iRoot / y, ?_⟩
  field_simp
  linear_combination h - i_sq

theorem x_sq (P : Pt) : P.x ^ 2 * (dCoeff * P.y ^ 2 + 1) = P.y ^ 2 - 1 := by linear_combination -P.on

/-- The last digit of a number of the field. -/
def parity (x : Fp) : Nat := x.val % 2

theorem neg_val {x : Fp} (hx : x ≠ 0) : (-x).val = fieldSize - x.val := by
  have : NeZero x := ⟨hx⟩
  exact ZMod.val_neg_of_ne_zero x

theorem parity_neg {x : Fp} (hx : x ≠ 0) : parity (-x) = 1 - parity x := by
  have h1 := ZMod.val_lt x
  rw [parity, parity, neg_val hx]
  generalize x.val = v at h1 ⊢
  have h2 : fieldSize = 2 * (fieldSize / 2) + 1 := by norm_num
  generalize fieldSize = q at h1 h2 ⊢
  omega

theorem eq_of_sq_parity {x x' : Fp} (h : x ^ 2 = x' ^ 2) (hp : parity x = parity x') : x = x' := by
  rcases sq_eq_sq_iff_eq_or_eq_neg.1 h with e | e
  · exact e
  · by_cases h0 : x' = 0
    · rw [e, h0, neg_zero]
    · exfalso
      rw [e, parity_neg h0, parity] at hp
      omega

/-- A point is determined by its `y` and the last digit of its `x`. -/
theorem ext_parity {P Q : Pt} (hy : P.y = Q.y) (hp : parity P.x = parity Q.x) : P = Q := by
  have h1 := x_sq P
  have h2 := x_sq Q
  rw [← hy] at h2
  have : P.x ^ 2 = Q.x ^ 2 := mul_right_cancel₀ (dy_ne P.y) (h1.trans h2.symm)
  ext
  · exact eq_of_sq_parity this hp
  · exact hy

theorem code_injective : Function.Injective fun P : Pt => ((P.y, decide (parity P.x = 1)) : Fp × Bool) := by
  intro P Q h
  simp only [Prod.mk.injEq, decide_eq_decide] at h
  refine ext_parity h.1 ?_
  have h2 := h.2
  simp only [parity] at h2 ⊢
  omega

instance : Finite Pt := Finite.of_injective _ code_injective

theorem card_le : Nat.card Pt ≤ 2 * fieldSize := by
  have := Nat.card_le_card_of_injective _ code_injective
  rwa [Nat.card_prod, Nat.card_zmod, Nat.card_eq_fintype_card (α := Bool), Fintype.card_bool, mul_comm] at this

theorem order_base : addOrderOf basePoint = baseOrder := by
  have : Fact (Nat.Prime baseOrder) := ⟨prime_l⟩
  exact addOrderOf_eq_prime base_order base_ne

theorem order_torsion : addOrderOf torsionPoint = 8 :=
  have : Fact (Nat.Prime 2) := ⟨Nat.prime_two⟩
  addOrderOf_eq_prime_pow (p := 2) (n := 2) torsion_ne torsion_order

/-- The curve has exactly `8·l` points. -/
theorem card_eq : Nat.card Pt = 8 * baseOrder := by
  have h1 : baseOrder ∣ Nat.card Pt := order_base ▸ addOrderOf_dvd_natCard basePoint
  have h2 : 8 ∣ Nat.card Pt := order_torsion ▸ addOrderOf_dvd_natCard torsionPoint
  obtain ⟨k, hk⟩ : 8 * baseOrder ∣ Nat.card Pt := Nat.Coprime.mul_dvd_of_dvd_of_dvd (by norm_num) h2 h1
  have h3 := card_le
  have h4 : 0 < Nat.card Pt := Nat.card_pos
  have : k = 1 := by
    rcases k with _ | _ | k
    · rw [hk] at h4; simp at h4
    · rfl
    · exfalso
      rw [hk] at h3
      have : 8 * baseOrder * 2 ≤ 8 * baseOrder * (k + 1 + 1) := Nat.mul_le_mul_left _ (by omega)
      have := this.trans h3
      norm_num at this
  rw [hk, this, mul_one]

/-- Eight times any point lies in the subgroup of order `l`. -/
theorem cofactor_order (P : Pt) : baseOrder • 8 • P = 0 := by
  rw [← mul_nsmul, ← card_eq]
  exact card_nsmul_eq_zero'

end Verif.Curve
