import Mathlib.Algebra.Field.Basic
import Mathlib.Algebra.Group.Even
import Mathlib.Tactic.LinearCombination
import Mathlib.Tactic.FieldSimp
import Mathlib.Tactic.Ring
/-!
# The group of a twisted Edwards curve

The curve `y² - x² = 1 + d·x²·y²` over a field in which `-1` is a square and `d` is not, with the complete addition law.
This is the mathematics behind `curve25519-dalek`, which the code uses for VRFs and signatures.
-/

namespace Verif.Edwards

/-- A point of the curve `y² - x² = 1 + d·x²·y²`. -/
@[ext] structure Point {F : Type} [Field F] (d : F) where
  x : F
  y : F
  on : y ^ 2 - x ^ 2 = 1 + d * x ^ 2 * y ^ 2

variable {F : Type} [Field F]

theorem closed_poly (d x1 y1 x2 y2 : F) (h1 : y1 ^ 2 - x1 ^ 2 = 1 + d * x1 ^ 2 * y1 ^ 2) (h2 : y2 ^ 2 - x2 ^ 2 = 1 + d * x2 ^ 2 * y2 ^ 2) :
    ((y1 * y2 + x1 * x2) * (1 + d * x1 * x2 * y1 * y2)) ^ 2 - ((x1 * y2 + y1 * x2) * (1 - d * x1 * x2 * y1 * y2)) ^ 2 =
      (1 + d * x1 * x2 * y1 * y2) ^ 2 * (1 - d * x1 * x2 * y1 * y2) ^ 2 +
        d * (x1 * y2 + y1 * x2) ^ 2 * (y1 * y2 + x1 * x2) ^ 2 := by
  linear_combination (y2^4 - 4*x2^2*y2^2 - 2*x2^2*y2^2*d + 2*x2^2*y2^4 + x2^4 - 2*x2^4*y2^2 - 2*x2^4*y2^4*d -
     x2^4*y2^4*d^2 - y1^2*x2^2*y2^4*d + y1^2*x2^4*y2^2*d + y1^2*x2^4*y2^4*d^2 + x1^2*x2^2*y2^4*d -
     x1^2*x2^4*y2^2*d - x1^2*x2^4*y2^4*d^2 + x1^2*y1^2*x2^4*y2^4*d^3) * h1 +
    (1 + y2^2 - x2^2 + 2*x2^2*y2^2 + x2^2*y2^2*d - y1^2*y2^2 + y1^2*x2^2 - 2*y1^2*x2^2*y2^2 -
     2*y1^2*x2^2*y2^2*d + y1^4*x2^2*y2^2*d + x1^2*y2^2 - x1^2*x2^2 + 2*x1^2*x2^2*y2^2 +
     2*x1^2*x2^2*y2^2*d + x1^4*x2^2*y2^2*d) * h2

theorem assoc_x_poly (d x1 y1 x2 y2 x3 y3 : F) (h1 : y1 ^ 2 - x1 ^ 2 = 1 + d * x1 ^ 2 * y1 ^ 2) (h2 : y2 ^ 2 - x2 ^ 2 = 1 + d * x2 ^ 2 * y2 ^ 2)
    (h3 : y3 ^ 2 - x3 ^ 2 = 1 + d * x3 ^ 2 * y3 ^ 2) :
    ((x1 * y2 + y1 * x2) * (1 - d * x1 * x2 * y1 * y2) * y3 + (y1 * y2 + x1 * x2) * (1 + d * x1 * x2 * y1 * y2) * x3) *
      ((1 + d * x2 * x3 * y2 * y3) * (1 - d * x2 * x3 * y2 * y3) + d * x1 * y1 * (x2 * y3 + y2 * x3) * (y2 * y3 + x2 * x3)) =
    (x1 * (y2 * y3 + x2 * x3) * (1 + d * x2 * x3 * y2 * y3) + y1 * (x2 * y3 + y2 * x3) * (1 - d * x2 * x3 * y2 * y3)) *
      ((1 + d * x1 * x2 * y1 * y2) * (1 - d * x1 * x2 * y1 * y2) + d * x3 * y3 * (x1 * y2 + y1 * x2) * (y1 * y2 + x1 * x2)) := by
  linear_combination (- y1*x2*y2^4*x3^2*y3*d - y1*x2^2*y2^3*x3*d - y1*x2^2*y2^3*x3^3*d - y1*x2^3*y2^2*y3*d +
     y1*x2^3*y2^2*y3^3*d + y1*x2^3*y2^4*x3^2*y3*d^2 + y1*x2^4*y2*x3*y3^2*d + y1*x2^4*y2^3*x3*y3^2*d^2 +
     x1*x2*y2^4*x3*y3^2*d - x1*x2^2*y2^3*y3*d + x1*x2^2*y2^3*y3^3*d - x1*x2^3*y2^2*x3*d -
     x1*x2^3*y2^2*x3^3*d - x1*x2^3*y2^4*x3*y3^2*d^2 - x1*x2^4*y2*x3^2*y3*d - x1*x2^4*y2^3*x3^2*y3*d^2) * h1 +
    (y1*y2*x3 - y1*y2*x3*y3^2 + y1*y2*x3^3 + y1*y2*x3^3*y3^2*d + y1*x2*y3 - y1*x2*y3^3 + y1*x2*x3^2*y3 +
     y1*x2*x3^2*y3^3*d - y1*x2*y2^2*x3^2*y3*d - y1*x2^2*y2*x3*y3^2*d - y1^3*y2*x3 + y1^3*y2*x3*y3^2 -
     y1^3*y2*x3^3 - y1^3*y2*x3^3*y3^2*d - y1^3*x2*y3 + y1^3*x2*y3^3 - y1^3*x2*x3^2*y3 -
     y1^3*x2*x3^2*y3^3*d + y1^3*x2*y2^2*x3^2*y3*d + y1^3*x2^2*y2*x3*y3^2*d + x1*y2*y3 - x1*y2*y3^3 +
     x1*y2*x3^2*y3 + x1*y2*x3^2*y3^3*d + x1*x2*x3 - x1*x2*x3*y3^2 + x1*x2*x3^3 + x1*x2*x3^3*y3^2*d +
     x1*x2*y2^2*x3*y3^2*d + x1*x2^2*y2*x3^2*y3*d - x1*y1^2*y2*y3 + x1*y1^2*y2*y3^3 - x1*y1^2*y2*x3^2*y3 -
     x1*y1^2*y2*x3^2*y3^3*d - x1*y1^2*x2*x3 + x1*y1^2*x2*x3*y3^2 - x1*y1^2*x2*x3^3 -
     x1*y1^2*x2*x3^3*y3^2*d - x1*y1^2*x2*y2^2*x3*y3^2*d + x1*y1^2*x2*y2^2*x3^3*y3^2*d^2 -
     x1*y1^2*x2^2*y2*x3^2*y3*d - x1*y1^2*x2^2*y2*x3^2*y3^3*d^2 + x1^2*y1*y2*x3 - x1^2*y1*y2*x3*y3^2 +
     x1^2*y1*y2*x3^3 + x1^2*y1*y2*x3^3*y3^2*d + x1^2*y1*x2*y3 - x1^2*y1*x2*y3^3 + x1^2*y1*x2*x3^2*y3 +
     x1^2*y1*x2*x3^2*y3^3*d - x1^2*y1*x2*y2^2*x3^2*y3*d - x1^2*y1*x2*y2^2*x3^2*y3^3*d^2 -
     x1^2*y1*x2^2*y2*x3*y3^2*d + x1^2*y1*x2^2*y2*x3^3*y3^2*d^2 + x1^3*y2*y3 - x1^3*y2*y3^3 +
     x1^3*y2*x3^2*y3 + x1^3*y2*x3^2*y3^3*d + x1^3*x2*x3 - x1^3*x2*x3*y3^2 + x1^3*x2*x3^3 +
     x1^3*x2*x3^3*y3^2*d + x1^3*x2*y2^2*x3*y3^2*d + x1^3*x2^2*y2*x3^2*y3*d) * h2 +
    (- y1*y2*x3 + y1*y2^3*x3 - y1*x2*y3 + y1*x2*y2^2*y3 - y1*x2^2*y2*x3 - y1*x2^3*y3 + y1^3*y2*x3 -
     y1^3*y2^3*x3 + y1^3*x2*y3 - y1^3*x2*y2^2*y3 + y1^3*x2^2*y2*x3 + y1^3*x2^3*y3 - x1*y2*y3 + x1*y2^3*y3
     - x1*x2*x3 + x1*x2*y2^2*x3 - x1*x2^2*y2*y3 - x1*x2^3*x3 + x1*y1^2*y2*y3 - x1*y1^2*y2^3*y3 +
     x1*y1^2*x2*x3 - x1*y1^2*x2*y2^2*x3 - x1*y1^2*x2*y2^2*x3*d + x1*y1^2*x2^2*y2*y3 +
     x1*y1^2*x2^2*y2*y3*d + x1*y1^2*x2^3*x3 - x1^2*y1*y2*x3 + x1^2*y1*y2^3*x3 - x1^2*y1*x2*y3 +
     x1^2*y1*x2*y2^2*y3 + x1^2*y1*x2*y2^2*y3*d - x1^2*y1*x2^2*y2*x3 - x1^2*y1*x2^2*y2*x3*d -
     x1^2*y1*x2^3*y3 - x1^3*y2*y3 + x1^3*y2^3*y3 - x1^3*x2*x3 + x1^3*x2*y2^2*x3 - x1^3*x2^2*y2*y3 -
     x1^3*x2^3*x3) * h3

theorem assoc_y_poly (d x1 y1 x2 y2 x3 y3 : F) (h1 : y1 ^ 2 - x1 ^ 2 = 1 + d * x1 ^ 2 * y1 ^ 2) (h2 : y2 ^ 2 - x2 ^ 2 = 1 + d * x2 ^ 2 * y2 ^ 2)
    (h3 : y3 ^ 2 - x3 ^ 2 = 1 + d * x3 ^ 2 * y3 ^ 2) :
    ((y1 * y2 + x1 * x2) * (1 + d * x1 * x2 * y1 * y2) * y3 + (x1 * y2 + y1 * x2) * (1 - d * x1 * x2 * y1 * y2) * x3) *
      ((1 + d * x2 * x3 * y2 * y3) * (1 - d * x2 * x3 * y2 * y3) - d * x1 * y1 * (x2 * y3 + y2 * x3) * (y2 * y3 + x2 * x3)) =
    (y1 * (y2 * y3 + x2 * x3) * (1 + d * x2 * x3 * y2 * y3) + x1 * (x2 * y3 + y2 * x3) * (1 - d * x2 * x3 * y2 * y3)) *
      ((1 + d * x1 * x2 * y1 * y2) * (1 - d * x1 * x2 * y1 * y2) - d * x3 * y3 * (x1 * y2 + y1 * x2) * (y1 * y2 + x1 * x2)) := by
  linear_combination (y1*x2*y2^4*x3*y3^2*d - y1*x2^2*y2^3*y3*d + y1*x2^2*y2^3*y3^3*d - y1*x2^3*y2^2*x3*d -
     y1*x2^3*y2^2*x3^3*d - y1*x2^3*y2^4*x3*y3^2*d^2 - y1*x2^4*y2*x3^2*y3*d - y1*x2^4*y2^3*x3^2*y3*d^2 -
     x1*x2*y2^4*x3^2*y3*d - x1*x2^2*y2^3*x3*d - x1*x2^2*y2^3*x3^3*d - x1*x2^3*y2^2*y3*d +
     x1*x2^3*y2^2*y3^3*d + x1*x2^3*y2^4*x3^2*y3*d^2 + x1*x2^4*y2*x3*y3^2*d + x1*x2^4*y2^3*x3*y3^2*d^2) * h1 +
    (y1*y2*y3 - y1*y2*y3^3 + y1*y2*x3^2*y3 + y1*y2*x3^2*y3^3*d + y1*x2*x3 - y1*x2*x3*y3^2 + y1*x2*x3^3 +
     y1*x2*x3^3*y3^2*d + y1*x2*y2^2*x3*y3^2*d + y1*x2^2*y2*x3^2*y3*d - y1^3*y2*y3 + y1^3*y2*y3^3 -
     y1^3*y2*x3^2*y3 - y1^3*y2*x3^2*y3^3*d - y1^3*x2*x3 + y1^3*x2*x3*y3^2 - y1^3*x2*x3^3 -
     y1^3*x2*x3^3*y3^2*d - y1^3*x2*y2^2*x3*y3^2*d - y1^3*x2^2*y2*x3^2*y3*d + x1*y2*x3 - x1*y2*x3*y3^2 +
     x1*y2*x3^3 + x1*y2*x3^3*y3^2*d + x1*x2*y3 - x1*x2*y3^3 + x1*x2*x3^2*y3 + x1*x2*x3^2*y3^3*d -
     x1*x2*y2^2*x3^2*y3*d - x1*x2^2*y2*x3*y3^2*d - x1*y1^2*y2*x3 + x1*y1^2*y2*x3*y3^2 - x1*y1^2*y2*x3^3 -
     x1*y1^2*y2*x3^3*y3^2*d - x1*y1^2*x2*y3 + x1*y1^2*x2*y3^3 - x1*y1^2*x2*x3^2*y3 -
     x1*y1^2*x2*x3^2*y3^3*d + x1*y1^2*x2*y2^2*x3^2*y3*d + x1*y1^2*x2*y2^2*x3^2*y3^3*d^2 +
     x1*y1^2*x2^2*y2*x3*y3^2*d - x1*y1^2*x2^2*y2*x3^3*y3^2*d^2 + x1^2*y1*y2*y3 - x1^2*y1*y2*y3^3 +
     x1^2*y1*y2*x3^2*y3 + x1^2*y1*y2*x3^2*y3^3*d + x1^2*y1*x2*x3 - x1^2*y1*x2*x3*y3^2 + x1^2*y1*x2*x3^3 +
     x1^2*y1*x2*x3^3*y3^2*d + x1^2*y1*x2*y2^2*x3*y3^2*d - x1^2*y1*x2*y2^2*x3^3*y3^2*d^2 +
     x1^2*y1*x2^2*y2*x3^2*y3*d + x1^2*y1*x2^2*y2*x3^2*y3^3*d^2 + x1^3*y2*x3 - x1^3*y2*x3*y3^2 +
     x1^3*y2*x3^3 + x1^3*y2*x3^3*y3^2*d + x1^3*x2*y3 - x1^3*x2*y3^3 + x1^3*x2*x3^2*y3 +
     x1^3*x2*x3^2*y3^3*d - x1^3*x2*y2^2*x3^2*y3*d - x1^3*x2^2*y2*x3*y3^2*d) * h2 +
    (- y1*y2*y3 + y1*y2^3*y3 - y1*x2*x3 + y1*x2*y2^2*x3 - y1*x2^2*y2*y3 - y1*x2^3*x3 + y1^3*y2*y3 -
     y1^3*y2^3*y3 + y1^3*x2*x3 - y1^3*x2*y2^2*x3 + y1^3*x2^2*y2*y3 + y1^3*x2^3*x3 - x1*y2*x3 + x1*y2^3*x3
     - x1*x2*y3 + x1*x2*y2^2*y3 - x1*x2^2*y2*x3 - x1*x2^3*y3 + x1*y1^2*y2*x3 - x1*y1^2*y2^3*x3 +
     x1*y1^2*x2*y3 - x1*y1^2*x2*y2^2*y3 - x1*y1^2*x2*y2^2*y3*d + x1*y1^2*x2^2*y2*x3 +
     x1*y1^2*x2^2*y2*x3*d + x1*y1^2*x2^3*y3 - x1^2*y1*y2*y3 + x1^2*y1*y2^3*y3 - x1^2*y1*x2*x3 +
     x1^2*y1*x2*y2^2*x3 + x1^2*y1*x2*y2^2*x3*d - x1^2*y1*x2^2*y2*y3 - x1^2*y1*x2^2*y2*y3*d -
     x1^2*y1*x2^3*x3 - x1^3*y2*x3 + x1^3*y2^3*x3 - x1^3*x2*y3 + x1^3*x2*y2^2*y3 - x1^3*x2^2*y2*x3 -
     x1^3*x2^3*y3) * h3

/-- What the addition law needs: the characteristic is not two, `-1` is a square and `d` is not. -/
class Complete (d : F) : Prop where
  two_ne : (2 : F) ≠ 0
  minus_one : IsSquare (-1 : F)
  d_not_square : ¬ IsSquare d

/-- The denominators of the addition law do not vanish. -/
theorem denom_ne {d : F} [hc : Complete d] {x1 y1 x2 y2 e : F}
    (h1 : y1 ^ 2 - x1 ^ 2 = 1 + d * x1 ^ 2 * y1 ^ 2) (h2 : y2 ^ 2 - x2 ^ 2 = 1 + d * x2 ^ 2 * y2 ^ 2)
    (he : d * x1 * x2 * y1 * y2 = e) : e ^ 2 ≠ 1 := by
  intro he2
  have hd := hc.d_not_square
  have hsq := hc.minus_one
  obtain ⟨i, hi⟩ := hsq
  have key : ∀ s : F, s ^ 2 = 1 → (i * x1 + s * e * y1) ^ 2 = d * x1 ^ 2 * y1 ^ 2 * (i * x2 + s * y2) ^ 2 := by
    intro s hs
    linear_combination (-x1 ^ 2 + d * x1 ^ 2 * y1 ^ 2 * x2 ^ 2) * hi + (y1 ^ 2 * e ^ 2 - d * x1 ^ 2 * y1 ^ 2 * y2 ^ 2) * hs +
      (y1 ^ 2 - 1) * he2 + h1 - d * x1 ^ 2 * y1 ^ 2 * h2 -
      (d * x1 * x2 * y1 * y2 + e + 2 * i * s * x1 * y1) * he
  have hne : e ≠ 0 := by rintro rfl; simp at he2
  have hprod : d * x1 * x2 * y1 * y2 ≠ 0 := he ▸ hne
  simp only [mul_ne_zero_iff] at hprod
  obtain ⟨⟨⟨⟨_, hx1⟩, hx2⟩, hy1⟩, hy2⟩ := hprod
  have hz : ∀ s : F, s ^ 2 = 1 → i * x2 + s * y2 = 0 := by
    intro s hs
    by_contra hn
    refine hd ⟨(i * x1 + s * e * y1) / (x1 * y1 * (i * x2 + s * y2)), ?_⟩
    field_simp
    linear_combination -(key s hs)
  have a := hz 1 (by ring)
  have b := hz (-1) (by ring)
  have h3 : (2 : F) * y2 = 0 := by linear_combination a - b
  exact hy2 ((mul_eq_zero.1 h3).resolve_left hc.two_ne)

theorem on_of_poly {d a b u v : F} (hu : u ≠ 0) (hv : v ≠ 0)
    (h : (b * u) ^ 2 - (a * v) ^ 2 = u ^ 2 * v ^ 2 + d * a ^ 2 * b ^ 2) :
    (b / v) ^ 2 - (a / u) ^ 2 = 1 + d * (a / u) ^ 2 * (b / v) ^ 2 := by
  field_simp
  linear_combination h

theorem assoc_x_of_poly {d a b u v c e s t x1 y1 x3 y3 : F} (hu : u ≠ 0) (hv : v ≠ 0) (hs : s ≠ 0) (ht : t ≠ 0)
    (h : (a * v * y3 + b * u * x3) * (s * t + d * x1 * y1 * c * e) =
      (x1 * e * s + y1 * c * t) * (u * v + d * x3 * y3 * a * b)) :
    (a / u * y3 + b / v * x3) * (1 + d * x1 * (c / s) * y1 * (e / t)) =
      (x1 * (e / t) + y1 * (c / s)) * (1 + d * (a / u) * x3 * (b / v) * y3) := by
  field_simp
  linear_combination h

theorem assoc_y_of_poly {d a b u v c e s t x1 y1 x3 y3 : F} (hu : u ≠ 0) (hv : v ≠ 0) (hs : s ≠ 0) (ht : t ≠ 0)
    (h : (b * u * y3 + a * v * x3) * (s * t - d * x1 * y1 * c * e) =
      (y1 * e * s + x1 * c * t) * (u * v - d * x3 * y3 * a * b)) :
    (b / v * y3 + a / u * x3) * (1 - d * x1 * (c / s) * y1 * (e / t)) =
      (y1 * (e / t) + x1 * (c / s)) * (1 - d * (a / u) * x3 * (b / v) * y3) := by
  field_simp
  linear_combination h

variable {d : F} [hc : Complete d]

theorem denom_pos_ne (P Q : Point d) : 1 + d * P.x * Q.x * P.y * Q.y ≠ 0 := fun h =>
  denom_ne (e := -1) P.on Q.on (by linear_combination h) (by ring)

theorem denom_neg_ne (P Q : Point d) : 1 - d * P.x * Q.x * P.y * Q.y ≠ 0 := fun h =>
  denom_ne (e := 1) P.on Q.on (by linear_combination -h) (by ring)

/-- The complete addition law. -/
def Point.add (P Q : Point d) : Point d where
  x := (P.x * Q.y + P.y * Q.x) / (1 + d * P.x * Q.x * P.y * Q.y)
  y := (P.y * Q.y + P.x * Q.x) / (1 - d * P.x * Q.x * P.y * Q.y)
  on := on_of_poly (denom_pos_ne P Q) (denom_neg_ne P Q) (closed_poly d P.x P.y Q.x Q.y P.on Q.on)

/-- The neutral point. -/
def Point.zero : Point d := ⟨0, 1, by ring⟩

/-- The opposite point. -/
def Point.neg (P : Point d) : Point d := ⟨-P.x, P.y, by linear_combination P.on⟩


theorem add_comm' (P Q : Point d) : P.add Q = Q.add P := by
  ext
  · simp only [Point.add]
    congr 1 <;> ring
  · simp only [Point.add]
    congr 1 <;> ring

theorem zero_add' (P : Point d) : Point.zero.add P = P := by
  ext <;> simp [Point.add, Point.zero]

theorem neg_add' (P : Point d) : P.neg.add P = Point.zero := by
  have h2 := denom_neg_ne P.neg P
  have h3 := P.on
  ext
  · simp only [Point.add, Point.neg, Point.zero, div_eq_zero_iff]
    left
    ring
  · simp only [Point.neg] at h2
    simp only [Point.add, Point.neg, Point.zero, div_eq_one_iff_eq h2]
    linear_combination h3

theorem add_x (P Q : Point d) : (P.add Q).x = (P.x * Q.y + P.y * Q.x) / (1 + d * P.x * Q.x * P.y * Q.y) := rfl

theorem add_y (P Q : Point d) : (P.add Q).y = (P.y * Q.y + P.x * Q.x) / (1 - d * P.x * Q.x * P.y * Q.y) := rfl

theorem add_assoc' (P Q R : Point d) : (P.add Q).add R = P.add (Q.add R) := by
  have a1 := denom_pos_ne P Q
  have a2 := denom_neg_ne P Q
  have a3 := denom_pos_ne Q R
  have a4 := denom_neg_ne Q R
  have b1 := denom_pos_ne (P.add Q) R
  have b2 := denom_neg_ne (P.add Q) R
  have b3 := denom_pos_ne P (Q.add R)
  have b4 := denom_neg_ne P (Q.add R)
  have hx := assoc_x_poly d P.x P.y Q.x Q.y R.x R.y P.on Q.on R.on
  have hy := assoc_y_poly d P.x P.y Q.x Q.y R.x R.y P.on Q.on R.on
  ext
  · rw [add_x, add_x P (Q.add R), div_eq_div_iff b1 b3]
    exact assoc_x_of_poly a1 a2 a3 a4 hx
  · rw [add_y, add_y P (Q.add R), div_eq_div_iff b2 b4]
    exact assoc_y_of_poly a1 a2 a3 a4 hy

/-- `n • P` by doubling. -/
def Point.mul (P : Point d) (n : Nat) : Point d :=
  if n = 0 then Point.zero
  else
    let h := (P.add P).mul (n / 2)
    if n % 2 = 1 then P.add h else h
  termination_by n
  decreasing_by omega

instance : Add (Point d) := ⟨Point.add⟩
instance : Zero (Point d) := ⟨Point.zero⟩
instance : Neg (Point d) := ⟨Point.neg⟩

theorem add_def (P Q : Point d) : P + Q = P.add Q := rfl
omit hc in
theorem zero_def : (0 : Point d) = Point.zero := rfl
omit hc in
theorem neg_def (P : Point d) : -P = P.neg := rfl

/-- The group, with multiples by repeated addition. -/
abbrev slowGroup : AddCommGroup (Point d) where
  add_assoc := add_assoc'
  zero_add := zero_add'
  add_zero P := (add_comm' P _).trans (zero_add' P)
  neg_add_cancel := neg_add'
  add_comm := add_comm'
  nsmul := nsmulRec
  zsmul := zsmulRec

theorem mul_eq_rec (P : Point d) (n : Nat) : P.mul n = nsmulRec n P := by
  let _ := slowGroup (d := d)
  change P.mul n = n • P
  induction n using Nat.strong_induction_on generalizing P with
  | _ n ih =>
    rw [Point.mul]
    split
    · next h => rw [h, zero_nsmul]; rfl
    · next h =>
      simp only [ih (n / 2) (by omega)]
      have e : n = n / 2 * 2 + n % 2 := by omega
      have h2 : (n / 2) • (P.add P) = (n / 2 * 2) • P := by
        rw [mul_nsmul', two_nsmul]; rfl
      rw [h2]
      split
      · next h1 => rw [← add_def]; conv => rhs; rw [e, h1, add_nsmul, one_nsmul, add_comm]
      · next h1 => conv => rhs; rw [e, show n % 2 = 0 by omega, add_zero]

/-- The group of the curve. -/
instance : AddCommGroup (Point d) where
  add_assoc := add_assoc'
  zero_add := zero_add'
  add_zero P := (add_comm' P _).trans (zero_add' P)
  neg_add_cancel := neg_add'
  add_comm := add_comm'
  nsmul n P := P.mul n
  nsmul_zero P := mul_eq_rec P 0
  nsmul_succ n P := by
    change P.mul (n + 1) = (P.mul n).add P
    rw [mul_eq_rec, mul_eq_rec]
    rfl
  zsmul := zsmulRec

end Verif.Edwards
