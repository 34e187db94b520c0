import Verif.Model.Curve25519
import Verif.Props.Vrf
import Mathlib.Tactic.FieldSimp
import Mathlib.Tactic.LinearCombination
/-!
# Curve25519 meets what the claims about the VRF assume (C24, C163-C166)
-/

namespace Verif.Props
open Verif Verif.Vrf Verif.Curve Verif.Edwards

/-! ## Square roots -/

theorem sqrt_some {a r : Fp} (h : sqrt? a = some r) : r ^ 2 = a := by
  simp only [sqrt?] at h
  generalize ((powMod fieldSize 256 a.val ((fieldSize + 3) / 8) : Nat) : Fp) = t at h
  by_cases h1 : t * t = a
  · rw [if_pos h1] at h
    rw [← Option.some.inj h, pow_two, h1]
  · rw [if_neg h1] at h
    by_cases h2 : t * iRoot * (t * iRoot) = a
    · rw [if_pos h2] at h
      rw [← Option.some.inj h, pow_two, h2]
    · rw [if_neg h2] at h
      cases h

theorem sqrt_none {a : Fp} (h : sqrt? a = none) : ¬ IsSquare a := by
  intro hs
  simp only [sqrt?] at h
  rw [powMod_eq _ _ _ _ (by norm_num), cast_mod, Nat.cast_pow, ZMod.natCast_zmod_val] at h
  by_cases h0 : a = 0
  · subst h0
    rw [zero_pow (by norm_num), if_pos (mul_zero _)] at h
    cases h
  · have he := (ZMod.euler_criterion fieldSize h0).1 hs
    generalize hr : a ^ ((fieldSize + 3) / 8) = r at h
    have h4 : (r * r) ^ 2 = a ^ 2 := by
      have : (r * r) ^ 2 = a ^ (fieldSize / 2) * a ^ 2 := by
        rw [← pow_two, ← hr, ← pow_mul, ← pow_mul, ← pow_add]
        exact congrArg (a ^ ·) (by norm_num)
      rw [this, he, one_mul]
    rcases sq_eq_sq_iff_eq_or_eq_neg.1 h4 with e | e
    · rw [if_pos e] at h; cases h
    · have : r * iRoot * (r * iRoot) = a := by linear_combination r * r * i_sq - e
      rw [if_pos this] at h
      split at h <;> cases h

attribute [local irreducible] sqrt?

theorem two_nonsquare : ¬ IsSquare (2 : Fp) := by
  have : ¬ IsSquare ((2 : Nat) : Fp) := by
    rw [square_iff _ (by decide +kernel)]
    decide +kernel
  exact_mod_cast this

theorem am2_nonsquare : ¬ IsSquare (486660 : Fp) := by
  have : ¬ IsSquare ((486660 : Nat) : Fp) := by
    rw [square_iff _ (by decide +kernel)]
    decide +kernel
  exact_mod_cast this

theorem disc_nonsquare : ¬ IsSquare (236839902240 : Fp) := by
  have : ¬ IsSquare ((236839902240 : Nat) : Fp) := by
    rw [square_iff _ (by decide +kernel)]
    decide +kernel
  exact_mod_cast this

theorem map_square : ∃ c : Fp, c ^ 2 = -486664 := by
  refine ⟨((6853475219497561581579357271197624642482790079785650197046958215289687604742 : Nat) : Fp), ?_⟩
  have h : ((6853475219497561581579357271197624642482790079785650197046958215289687604742 ^ 2 + 486664 : Nat) : Fp) = 0 :=
    cast_zero.2 (by decide +kernel)
  rw [Nat.cast_add, Nat.cast_pow] at h
  have e : ((486664 : Nat) : Fp) = 486664 := by norm_cast
  rw [e] at h
  linear_combination h

/-- The product of two numbers without square root has one. -/
theorem mul_nonsquares {a b : Fp} (ha : ¬ IsSquare a) (hb : ¬ IsSquare b) : IsSquare (a * b) := by
  have ha0 : a ≠ 0 := by rintro rfl; exact ha ⟨0, by simp⟩
  have hb0 : b ≠ 0 := by rintro rfl; exact hb ⟨0, by simp⟩
  rw [ZMod.euler_criterion fieldSize (mul_ne_zero ha0 hb0), mul_pow]
  rw [ZMod.euler_criterion fieldSize ha0] at ha
  rw [ZMod.euler_criterion fieldSize hb0] at hb
  rw [(ZMod.pow_div_two_eq_neg_one_or_one fieldSize ha0).resolve_left ha,
    (ZMod.pow_div_two_eq_neg_one_or_one fieldSize hb0).resolve_left hb]
  ring

/-! ## Points as bytes -/

/-- Specification: the points that 32 bytes stand for (RFC 8032, 5.1.3, without its refusal of other encodings): `y` is
the number in the lower 255 bits, modulo the field; the last digit of `x` is the highest bit, unless `x` is zero. -/
def StandsFor (b : Bytes) (P : Pt) : Prop :=
  P.y = ((leVal b % 2 ^ 255 : Nat) : Fp) ∧ (P.x = 0 ∨ P.x.val % 2 = leVal b / 2 ^ 255 % 2)

theorem ratio_sq {P : Pt} : (P.y ^ 2 - 1) / (dCoeff * P.y ^ 2 + 1) = P.x ^ 2 := by
  rw [← x_sq P, mul_div_cancel_right₀ _ (dy_ne P.y)]

theorem parity_lt (x : Fp) : parity x < 2 := Nat.mod_lt _ (by decide)

theorem withY_iff (y : Fp) (s : Nat) (hs2 : s < 2) (P : Pt) :
    withY y s = some P ↔ P.y = y ∧ (P.x = 0 ∨ parity P.x = s) := by
  constructor
  · intro h
    unfold withY at h
    cases hq : sqrt? ((y ^ 2 - 1) / (dCoeff * y ^ 2 + 1)) with
    | none => rw [hq] at h; cases h
    | some r =>
      rw [hq] at h
      simp only at h
      have hx : (if parity r = s then r else -r) = 0 ∨ parity (if parity r = s then r else -r) = s := by
        by_cases hp : parity r = s
        · right; rw [if_pos hp, hp]
        · rw [if_neg hp]
          by_cases h0 : r = 0
          · left; rw [h0, neg_zero]
          · right
            rw [parity_neg h0]
            have hl := parity_lt r
            omega
      generalize (if parity r = s then r else -r) = x at h hx
      by_cases hon : y ^ 2 - x ^ 2 = 1 + dCoeff * x ^ 2 * y ^ 2
      · rw [dif_pos hon] at h
        rw [← Option.some.inj h]
        exact ⟨rfl, hx⟩
      · rw [dif_neg hon] at h
        cases h
  · rintro ⟨rfl, hx⟩
    unfold withY
    rw [ratio_sq]
    cases hq : sqrt? (P.x ^ 2) with
    | none => exact absurd ⟨P.x, pow_two _⟩ (sqrt_none hq)
    | some r =>
      have hr := sqrt_some hq
      have key : (if parity r = s then r else -r) = P.x := by
        rcases hx with hx | hx
        · rw [hx] at hr ⊢
          have : r = 0 := by rwa [zero_pow (by decide), sq_eq_zero_iff] at hr
          rw [this, neg_zero, ite_self]
        · by_cases hp : parity r = s
          · rw [if_pos hp]
            exact eq_of_sq_parity hr (hp.trans hx.symm)
          · rw [if_neg hp]
            rcases sq_eq_sq_iff_eq_or_eq_neg.1 hr with e | e
            · exact absurd (e ▸ hx) hp
            · rw [e, neg_neg]
      simp only [key]
      rw [dif_pos P.on]

theorem decompress_iff (b : Bytes) (P : Pt) : decompress b = some P ↔ StandsFor b P :=
  withY_iff _ _ (Nat.mod_lt _ (by decide)) P

theorem decompress_none_iff (b : Bytes) : decompress b = none ↔ ∀ P, ¬ StandsFor b P := by
  constructor
  · intro h P hP
    rw [(decompress_iff b P).2 hP] at h
    cases h
  · intro h
    cases hd : decompress b with
    | none => rfl
    | some P => exact absurd ((decompress_iff b P).1 hd) (h P)

theorem code_lt (y : Fp) (s : Nat) (hs : s < 2) : y.val + 2 ^ 255 * s < 256 ^ 32 := by
  have h := ZMod.val_lt y
  have e : (256 : Nat) ^ 32 = 2 * 2 ^ 255 := by decide
  have h2 : fieldSize ≤ 2 ^ 255 := by norm_num
  generalize y.val = v at h ⊢
  generalize fieldSize = q at h h2
  generalize (2 : Nat) ^ 255 = t at *
  have : t * s ≤ t * 1 := Nat.mul_le_mul_left _ (by omega)
  omega

theorem code_parts (y : Fp) (s : Nat) (hs : s < 2) :
    leVal (leBytes 32 (y.val + 2 ^ 255 * s)) % 2 ^ 255 = y.val ∧ leVal (leBytes 32 (y.val + 2 ^ 255 * s)) / 2 ^ 255 % 2 = s := by
  rw [leVal_leBytes _ _ (code_lt y s hs)]
  have h := ZMod.val_lt y
  have h2 : fieldSize ≤ 2 ^ 255 := by norm_num
  have h3 : 0 < 2 ^ 255 := by norm_num
  generalize y.val = v at h ⊢
  generalize fieldSize = q at h h2
  generalize (2 : Nat) ^ 255 = t at *
  rw [Nat.add_mul_mod_self_left, Nat.mod_eq_of_lt (by omega), Nat.add_mul_div_left _ _ h3, Nat.div_eq_of_lt (by omega),
    Nat.zero_add, Nat.mod_eq_of_lt hs]
  exact ⟨rfl, rfl⟩

theorem compress_length (P : Pt) : (compress P).length = 32 := leBytes_length _ _

theorem decompress_compress (P : Pt) : decompress (compress P) = some P := by
  rw [decompress_iff, StandsFor, compress]
  obtain ⟨h1, h2⟩ := code_parts P.y (parity P.x) (parity_lt _)
  rw [h1, h2, ZMod.natCast_zmod_val]
  exact ⟨rfl, Or.inr rfl⟩

/-! ## The Elligator map -/

theorem poly_ne (u : Fp) : u ^ 2 + montA * u + 1 ≠ 0 := by
  intro h
  apply disc_nonsquare
  refine ⟨2 * u + montA, ?_⟩
  rw [montA] at *
  linear_combination -4 * h

theorem denom_elligator (r : Fp) : 1 + 2 * r ^ 2 ≠ 0 := by
  intro h
  have hr : r ≠ 0 := by rintro rfl; simp at h
  apply two_nonsquare
  refine ⟨iRoot / r, ?_⟩
  field_simp
  linear_combination h - i_sq

theorem choice_mont (e r : Fp) (he : e * (1 + 2 * r ^ 2) = -montA) :
    IsSquare (elligatorChoice e * (elligatorChoice e ^ 2 + montA * elligatorChoice e + 1)) := by
  cases hq : sqrt? (e * (e ^ 2 + montA * e + 1)) with
  | some w =>
    unfold elligatorChoice
    rw [hq]
    refine ⟨w, ?_⟩
    rw [← pow_two]
    exact (sqrt_some hq).symm
  | none =>
    unfold elligatorChoice
    rw [hq]
    simp only
    obtain ⟨w, hw⟩ := mul_nonsquares two_nonsquare (sqrt_none hq)
    refine ⟨r * w, ?_⟩
    have hu : -(e + montA) = 2 * r ^ 2 * e := by linear_combination -he
    have hp : (-(e + montA)) ^ 2 + montA * -(e + montA) + 1 = e ^ 2 + montA * e + 1 := by ring
    rw [hp, hu]
    linear_combination r ^ 2 * hw

/-- The result of the Elligator map is the `u` of a point of the Montgomery curve. -/
theorem elligatorU_mont (r : Fp) :
    IsSquare (elligatorU r * (elligatorU r ^ 2 + montA * elligatorU r + 1)) :=
  choice_mont _ r (div_mul_cancel₀ _ (denom_elligator r))

theorem elligatorU_ne (r : Fp) : elligatorU r ≠ -1 := by
  intro h
  have := elligatorU_mont r
  rw [h] at this
  apply am2_nonsquare
  convert this using 1
  rw [montA]; ring

/-- A point of the Montgomery curve other than `u = -1` is a point of the Edwards curve. -/
theorem edwards_of_mont (u : Fp) (hu : u ≠ -1) (hs : IsSquare (u * (u ^ 2 + montA * u + 1))) :
    IsSquare ((((u - 1) / (u + 1)) ^ 2 - 1) / (dCoeff * ((u - 1) / (u + 1)) ^ 2 + 1)) := by
  have h1 : u + 1 ≠ 0 := fun h => hu (by linear_combination h)
  have hp := poly_ne u
  obtain ⟨c, hc⟩ := map_square
  obtain ⟨w, hw⟩ := hs
  have hd := dy_ne ((u - 1) / (u + 1))
  have hk : (121666 : Fp) ≠ 0 := by
    have : ((121666 : Nat) : Fp) ≠ 0 := fun h => absurd (cast_zero.1 h) (by decide +kernel)
    exact_mod_cast this
  have hD : dCoeff * ((u - 1) / (u + 1)) ^ 2 + 1 = (u ^ 2 + montA * u + 1) / (121666 * (u + 1) ^ 2) := by
    rw [eq_div_iff (mul_ne_zero hk (pow_ne_zero _ h1)), div_pow]
    have h2 : (u + 1) ^ 2 ≠ 0 := pow_ne_zero _ h1
    rw [add_mul, mul_div_assoc', div_mul_eq_mul_div, montA]
    rw [show dCoeff * (u - 1) ^ 2 * (121666 * (u + 1) ^ 2) = (dCoeff * 121666 * (u - 1) ^ 2) * (u + 1) ^ 2 by ring,
      mul_div_cancel_right₀ _ h2, d_value]
    ring
  have hN : ((u - 1) / (u + 1)) ^ 2 - 1 = -4 * u / (u + 1) ^ 2 := by
    rw [div_pow, sub_eq_iff_eq_add, div_add_one (pow_ne_zero _ h1)]
    congr 1; ring
  have hQ : (((u - 1) / (u + 1)) ^ 2 - 1) / (dCoeff * ((u - 1) / (u + 1)) ^ 2 + 1) = c ^ 2 * u / (u ^ 2 + montA * u + 1) := by
    rw [hD, hN, hc]
    generalize u ^ 2 + montA * u + 1 = q at hp
    have h2 : (u + 1) ^ 2 ≠ 0 := pow_ne_zero _ h1
    generalize (u + 1) ^ 2 = t at h2
    field_simp
    ring
  rw [hQ]
  by_cases h0 : u = 0
  · rw [h0]; exact ⟨0, by simp⟩
  · have hw0 : w ≠ 0 := by
      rintro rfl
      rw [mul_zero] at hw
      exact (mul_ne_zero h0 hp) hw
    refine ⟨c * u / w, ?_⟩
    generalize u ^ 2 + montA * u + 1 = q at hp hw
    rw [div_mul_div_comm, div_eq_div_iff hp (mul_ne_zero hw0 hw0)]
    linear_combination (-c ^ 2 * u) * hw

theorem toEdwards_defined (u : Fp) (s : Nat) (hs2 : s < 2) (hu : u ≠ -1) (hm : IsSquare (u * (u ^ 2 + montA * u + 1))) :
    ∃ P : Pt, toEdwards u s = some P ∧ P.y = (u - 1) / (u + 1) ∧ (P.x = 0 ∨ P.x.val % 2 = s) := by
  rw [toEdwards, if_neg hu]
  obtain ⟨x, hx⟩ := edwards_of_mont u hu hm
  generalize (u - 1) / (u + 1) = y at hx
  have on : ∀ z : Fp, z ^ 2 = x * x → y ^ 2 - z ^ 2 = 1 + dCoeff * z ^ 2 * y ^ 2 := by
    intro z hz
    rw [div_eq_iff (dy_ne y)] at hx
    rw [hz]
    linear_combination hx
  obtain ⟨h1, h2⟩ := code_parts y s hs2
  have key : ∀ P : Pt, P.y = y → (P.x = 0 ∨ P.x.val % 2 = s) →
      ∃ P : Pt, decompress (leBytes 32 (y.val + 2 ^ 255 * s)) = some P ∧ P.y = y ∧ (P.x = 0 ∨ P.x.val % 2 = s) := by
    intro P hy hp
    refine ⟨P, (decompress_iff _ _).2 ⟨?_, ?_⟩, hy, hp⟩
    · rw [h1, ZMod.natCast_zmod_val, hy]
    · rw [h2]; exact hp
  by_cases hp : x.val % 2 = s
  · exact key ⟨x, y, on x (pow_two x)⟩ rfl (Or.inr hp)
  · refine key ⟨-x, y, on (-x) ((neg_sq x).trans (pow_two x))⟩ rfl ?_
    by_cases h0 : x = 0
    · left; exact neg_eq_zero.2 h0
    · right
      have := parity_neg h0
      rw [parity, parity] at this
      rw [this]
      omega

theorem elligator_defined (b : Bytes) : ∃ P, elligatorPoint b = some P := by
  obtain ⟨P, hP, _⟩ := toEdwards_defined _ (leVal (b.take 32) / 2 ^ 255 % 2) (Nat.mod_lt _ (by decide)) (elligatorU_ne _)
    (elligatorU_mont ((leVal (b.take 32) % 2 ^ 255 : Nat) : Fp))
  exact ⟨P, hP⟩

attribute [local irreducible] elligatorPoint

theorem elligator_order (b : Bytes) : baseOrder • elligator b = 0 := by
  unfold elligator
  split
  · exact smul_zero _
  · exact cofactor_order _

theorem baseOrder_low : 2 ^ 128 ≤ baseOrder := by norm_num

theorem baseOrder_high : baseOrder < 2 ^ 256 := by norm_num

attribute [local irreducible] compress decompress elligator Sha512.sha512

/-- Curve25519 with SHA-512 has all the properties that the theorems about the VRF assume. -/
theorem ed25519_good : GoodCurve ed25519 :=
  ⟨compress_length, decompress_compress, Sha512.sha512_length, base_order, elligator_order, baseOrder_low, baseOrder_high⟩

/-- **C24**, with the curve and the hash of the code, without assumptions: for all seeds and messages a proof is 80 bytes
long, verifies under the public key of the seed, and the output is the hash of `8·x·H`. -/
theorem C24_curve25519 (seed msg : Bytes) :
    (proveBytes ed25519 (fromSeed ed25519 seed) msg).length = 80 ∧
    verifyBytes ed25519 (fromSeed ed25519 seed).pub (proveBytes ed25519 (fromSeed ed25519 seed) msg) msg =
      .ok (Sha512.sha512 ([4, 3] ++ compress
        (8 • secretScalar ed25519 seed • vrfPoint ed25519 (fromSeed ed25519 seed).pub msg))) := by
  obtain ⟨h1, h2, h3⟩ := C24_prove_verifies ed25519 ed25519_good seed msg
  exact ⟨h1, h2.trans h3⟩

theorem sum_order : addOrderOf (torsionPoint + basePoint) = 8 * baseOrder := by
  rw [AddCommute.addOrderOf_add_eq_mul_addOrderOf_of_coprime (AddCommute.all _ _), order_torsion, order_base]
  rw [order_torsion, order_base]
  norm_num

/-- Eight times any point is a multiple of eight times the base point. -/
theorem eight_mul (P : Pt) : ∃ x : Nat, x < baseOrder ∧ 8 • P = 8 • x • basePoint := by
  have hmem : P ∈ AddSubmonoid.multiples (torsionPoint + basePoint) := by
    have h1 : addOrderOf (torsionPoint + basePoint) = Nat.card Pt := by rw [sum_order, card_eq]
    have h2 : AddSubgroup.zmultiples (torsionPoint + basePoint) = ⊤ :=
      AddSubgroup.eq_top_of_card_eq _ (by rw [Nat.card_zmultiples, h1])
    rw [mem_multiples_iff_mem_zmultiples, h2]
    trivial
  obtain ⟨n, hn⟩ := hmem
  have hn : n • (torsionPoint + basePoint) = P := hn
  refine ⟨n % baseOrder, Nat.mod_lt _ (by norm_num), ?_⟩
  rw [mod_smul _ _ _ base_order, ← hn, nsmul_add, nsmul_add, nsmul_left_comm, torsion_order, nsmul_zero, zero_add]

theorem eight_order (P : Pt) : (8 * baseOrder) • P = 0 := by
  rw [mul_nsmul']
  exact (smul_comm _ _ _).trans (cofactor_order P)

theorem compress_injective {P Q : Pt} (h : compress P = compress Q) : P = Q := by
  have := decompress_compress P
  rw [h, decompress_compress] at this
  exact (Option.some.inj this).symm

theorem multiple_zero (n : ℤ) (h : n • basePoint = 0) : (baseOrder : ℤ) ∣ n := by
  rw [← order_base]
  exact addOrderOf_dvd_iff_zsmul_eq_zero.2 h

theorem eight_multiple_zero (n : ℤ) (h : n • (8 : ℕ) • basePoint = 0) : (baseOrder : ℤ) ∣ n := by
  have h1 : (n * ((8 : ℕ) : ℤ)) • basePoint = 0 := by rw [mul_zsmul', natCast_zsmul, smul_comm]; exact h
  have h2 := multiple_zero _ h1
  have h3 : IsCoprime (baseOrder : ℤ) ((8 : ℕ) : ℤ) := by
    rw [Int.isCoprime_iff_gcd_eq_one]; norm_num
  exact h3.dvd_of_dvd_mul_right h2

theorem compress_zero : compress 0 = 1 :: List.replicate 31 0 := by
  have h1 : (0 : Pt).y = 1 := rfl
  have h2 : (0 : Pt).x = 0 := rfl
  have h3 : (1 : Fp).val = 1 := ZMod.val_one _
  have h4 : parity 0 = 0 := by rw [parity, ZMod.val_zero]
  rw [compress, h1, h2, h3, h4]
  decide


/-! ## C163: hashing to the curve -/

/-- Specification (Elligator 2 on the Montgomery curve `v² = u³ + 486662·u² + u`): a number `r` is mapped to
`u = e = -486662/(1+2r²)` if there is a point with this `u`, and to `-e-486662` otherwise. -/
def ElligatorOf (r u : Fp) : Prop :=
  ∃ e : Fp, e * (1 + 2 * r ^ 2) = -486662 ∧
    ((IsSquare (e ^ 3 + 486662 * e ^ 2 + e) ∧ u = e) ∨ (¬ IsSquare (e ^ 3 + 486662 * e ^ 2 + e) ∧ u = -e - 486662))

theorem choice_spec (e : Fp) :
    (IsSquare (e ^ 3 + 486662 * e ^ 2 + e) ∧ elligatorChoice e = e) ∨
      (¬ IsSquare (e ^ 3 + 486662 * e ^ 2 + e) ∧ elligatorChoice e = -e - 486662) := by
  have hp : e ^ 3 + 486662 * e ^ 2 + e = e * (e ^ 2 + montA * e + 1) := by rw [montA]; ring
  rw [hp]
  unfold elligatorChoice
  cases hq : sqrt? (e * (e ^ 2 + montA * e + 1)) with
  | some w => exact Or.inl ⟨⟨w, by rw [← sqrt_some hq, pow_two]⟩, rfl⟩
  | none =>
    refine Or.inr ⟨sqrt_none hq, ?_⟩
    change -(e + montA) = -e - 486662
    rw [montA]; ring

/-- **C163**: for all 64 bytes (and all others) the Elligator map finds a point, which never fails; the result is eight times
the point whose `y` is `(u-1)/(u+1)`, and lies in the subgroup of prime order. -/
theorem C163_hash_to_curve (b : Bytes) :
    ∃ (u : Fp) (P : Pt), elligatorPoint b = some P ∧ elligator b = 8 • P ∧ baseOrder • elligator b = 0 ∧
      ElligatorOf ((leVal (b.take 32) % 2 ^ 255 : Nat) : Fp) u ∧ u + 1 ≠ 0 ∧ P.y = (u - 1) / (u + 1) ∧
      (P.x = 0 ∨ P.x.val % 2 = leVal (b.take 32) / 2 ^ 255 % 2) := by
  generalize hr : ((leVal (b.take 32) % 2 ^ 255 : Nat) : Fp) = r
  obtain ⟨P, hP, hy, hx⟩ := toEdwards_defined _ (leVal (b.take 32) / 2 ^ 255 % 2) (Nat.mod_lt _ (by decide)) (elligatorU_ne r)
    (elligatorU_mont r)
  have hP' : elligatorPoint b = some P := by
    rw [elligatorPoint, hr]; exact hP
  refine ⟨elligatorU r, P, hP', ?_, elligator_order b, ⟨_, div_mul_cancel₀ _ (denom_elligator r), choice_spec _⟩, ?_, hy, hx⟩
  · unfold elligator; rw [hP']
  · intro h
    exact elligatorU_ne r (by linear_combination h)

/-! ## C164: one output for every key, whoever made it -/

/-- Specification: a challenge that is the only one that can be answered for its commitments. -/
def OnlyChallenge (y h gamma u v : Pt) (c : Nat) : Prop :=
  ∀ c' s' : Nat, c' < baseOrder → s' • basePoint - c' • y = u → s' • h - c' • gamma = v → c' = c

/-- Specification: a proof for a key and a message whose challenge, a hash of its commitments, is by chance the single one
that can be answered for them. -/
def LuckyProof (y : Pt) (pk proof msg : Bytes) : Prop :=
  ∃ gamma u v : Pt, StandsFor (proof.take 32) gamma ∧
    leVal ((proof.drop 32).take 16) = vrfChallenge ed25519 (vrfPoint ed25519 pk msg) gamma u v ∧
    OnlyChallenge y (vrfPoint ed25519 pk msg) gamma u v (leVal ((proof.drop 32).take 16))

/-- **C164**: every public key, including those made to deceive, has a number `x` such that for all messages all accepted proofs
have the output computed with `x`, except proofs whose challenge is by chance the only one that can be answered. -/
theorem C164_one_output (pk : Bytes) (y : Pt) (hpk : StandsFor pk y) :
    ∃ x : Nat, x < baseOrder ∧ 8 • y = 8 • x • basePoint ∧ ∀ proof msg out,
      verifyBytes ed25519 pk proof msg = .ok out →
      out = Sha512.sha512 ([4, 3] ++ compress (8 • x • vrfPoint ed25519 pk msg)) ∨ LuckyProof y pk proof msg := by
  obtain ⟨x, hx, h8⟩ := eight_mul y
  refine ⟨x, hx, h8, ?_⟩
  intro proof msg out hv
  obtain ⟨gamma, c, s, hg, hc, hs, hsl, hch, ho⟩ :=
    (C24_accepts_iff ed25519 ed25519_good pk proof msg out y ((decompress_iff pk y).2 hpk)).1 hv
  have hg' : StandsFor (proof.take 32) gamma := (decompress_iff _ _).1 hg
  by_cases hl : out = Sha512.sha512 ([4, 3] ++ compress (8 • x • vrfPoint ed25519 pk msg))
  · exact Or.inl hl
  refine Or.inr ⟨gamma, _, _, hg', hc.trans hch.symm, ?_⟩
  intro c' s' hc' hu hw
  rw [hc]
  by_contra hne
  have hclt : c < baseOrder := by
    rw [← hc]
    have h1 := leVal_lt ((proof.drop 32).take 16)
    have h2 : (256 : Nat) ^ ((proof.drop 32).take 16).length ≤ 256 ^ 16 :=
      Nat.pow_le_pow_right (by decide) (by rw [List.length_take]; exact Nat.min_le_left _ _)
    exact Nat.lt_of_lt_of_le h1 (h2.trans (by norm_num))
  have key : ∀ c s : Nat, s • 8 • basePoint - c • x • 8 • basePoint = 8 • (s • basePoint - c • y) := by
    intro c s
    rw [smul_sub, smul_comm 8 s, smul_comm 8 c, h8, smul_comm 8 x]
  have := C24_special_soundness { ed25519 with base := 8 • basePoint } prime_l
    eight_multiple_zero
    eight_order
    (vrfPoint ed25519 pk msg) gamma (elligator_order _) x c' c s' s hc' hclt hne
    (by
      refine (key c' s').trans (Eq.trans ?_ (key c s).symm)
      rw [hu]; rfl)
    hw
  exact hl (by rw [ho, this]; rfl)

/-- **C164**: two accepted proofs for the same key and message have the same output, unless one of them is lucky. -/
theorem C164_same_output (pk : Bytes) (y : Pt) (hpk : StandsFor pk y) (p p' msg out out' : Bytes)
    (h : verifyBytes ed25519 pk p msg = .ok out) (h' : verifyBytes ed25519 pk p' msg = .ok out') :
    out = out' ∨ LuckyProof y pk p msg ∨ LuckyProof y pk p' msg := by
  obtain ⟨x, _, _, hall⟩ := C164_one_output pk y hpk
  rcases hall _ _ _ h with e | e
  · rcases hall _ _ _ h' with e' | e'
    · exact Or.inl (e.trans e'.symm)
    · exact Or.inr (Or.inr e')
  · exact Or.inr (Or.inl e)

/-! ## C165: outputs for different messages -/

/-- The bytes `1, 0, …, 0`: the neutral element of the group. -/
def blankKey : Bytes := 1 :: List.replicate 31 0

theorem blankKey_zero : StandsFor blankKey 0 := by
  rw [blankKey, ← compress_zero, ← decompress_iff, decompress_compress]

theorem challenge_lt (h gamma u v : Pt) : vrfChallenge ed25519 h gamma u v < 256 ^ 16 := by
  rw [vrfChallenge]
  refine Nat.lt_of_lt_of_le (leVal_lt _) (Nat.pow_le_pow_right (by decide) ?_)
  rw [List.length_take]
  exact Nat.min_le_left _ _

theorem parts_of_proof (a b c : Bytes) (ha : a.length = 32) (hb : b.length = 16) (hc : c.length = 32) :
    (a ++ b ++ c).take 32 = a ∧ ((a ++ b ++ c).drop 32).take 16 = b ∧ ((a ++ b ++ c).drop 48).take 32 = c := by
  refine ⟨?_, ?_, ?_⟩
  · rw [List.append_assoc, List.take_append_of_le_length (by omega), List.take_of_length_le (by omega)]
  · rw [List.append_assoc, List.drop_append_of_le_length (by omega), List.drop_eq_nil_of_le (by omega), List.nil_append,
      List.take_append_of_le_length (by omega), List.take_of_length_le (by omega)]
  · rw [List.drop_append_of_le_length (by rw [List.length_append]; omega),
      List.drop_eq_nil_of_le (by rw [List.length_append]; omega), List.nil_append, List.take_of_length_le (by omega)]

/-- Any encoding of the neutral element, with the challenge for it and the response zero, is accepted under the blank key. -/
theorem blank_accepted (g msg : Bytes) (hl : g.length = 32) (hg : StandsFor g 0) :
    verifyBytes ed25519 blankKey
      (g ++ leBytes 16 (vrfChallenge ed25519 (vrfPoint ed25519 blankKey msg) 0 0 0) ++ leBytes 32 0) msg =
      .ok (Sha512.sha512 ([4, 3] ++ blankKey)) := by
  have hc := challenge_lt (vrfPoint ed25519 blankKey msg) 0 0 0
  obtain ⟨p1, p2, p3⟩ := parts_of_proof g (leBytes 16 (vrfChallenge ed25519 (vrfPoint ed25519 blankKey msg) 0 0 0)) (leBytes 32 0)
    hl (leBytes_length _ _) (leBytes_length _ _)
  refine (C24_accepts_iff ed25519 ed25519_good _ _ _ _ 0 ((decompress_iff _ _).2 blankKey_zero)).2
    ⟨0, vrfChallenge ed25519 (vrfPoint ed25519 blankKey msg) 0 0 0, 0, ?_, ?_, ?_, ?_, ?_, ?_⟩
  · rw [p1]; exact (decompress_iff _ _).2 hg
  · rw [p2, leVal_leBytes _ _ hc]
  · rw [p3, leVal_leBytes _ _ (by decide)]
  · change 0 < baseOrder; norm_num
  · simp only [smul_zero, zero_smul, sub_zero]
  · rw [smul_zero, blankKey, ← compress_zero]; rfl

/-- **C165** is false: under the blank key, which nobody has a secret key for, everybody can make a proof for every message, and
the output is always the same. -/
theorem C165_violated (msg : Bytes) :
    ∃ proof : Bytes, proof.length = 80 ∧
      verifyBytes ed25519 blankKey proof msg = .ok (Sha512.sha512 ([4, 3] ++ blankKey)) := by
  refine ⟨_, ?_, blank_accepted blankKey msg rfl blankKey_zero⟩
  rw [List.length_append, List.length_append, leBytes_length, leBytes_length]
  rfl

theorem cancel_order {n : Nat} {P Q : Pt} (hn : ¬ baseOrder ∣ n) (hP : baseOrder • P = 0) (hQ : baseOrder • Q = 0)
    (h : n • P = n • Q) : P = Q := by
  have h1 : n • (P - Q) = 0 := by rw [smul_sub, h, sub_self]
  have h2 : baseOrder • (P - Q) = 0 := by rw [smul_sub, hP, hQ, sub_self]
  have d1 := addOrderOf_dvd_of_nsmul_eq_zero h1
  have d2 := addOrderOf_dvd_of_nsmul_eq_zero h2
  rcases (Nat.dvd_prime prime_l).1 d2 with e | e
  · exact sub_eq_zero.1 (AddMonoid.addOrderOf_eq_one_iff.1 e)
  · rw [e] at d1; exact absurd d1 hn

/-- **C165**, what holds: under a key that is not of small order (eight times it is not the neutral element), accepted proofs for
two messages have the same output only if the messages are mapped to the same point, or SHA-512 has the same value on
two different explicit strings, or a proof is lucky. Missing: keys of small order, which are accepted. -/
theorem C165_other_outputs_partial (pk : Bytes) (y : Pt) (hpk : StandsFor pk y) (hy : 8 • y ≠ 0) :
    ∃ x : Nat, 8 • y = 8 • x • basePoint ∧ ∀ p p' msg msg' out,
      verifyBytes ed25519 pk p msg = .ok out → verifyBytes ed25519 pk p' msg' = .ok out →
      vrfPoint ed25519 pk msg = vrfPoint ed25519 pk msg' ∨
      (∃ a b : Bytes, a ≠ b ∧ Sha512.sha512 a = Sha512.sha512 b ∧
        a = [4, 3] ++ compress (8 • x • vrfPoint ed25519 pk msg) ∧
        b = [4, 3] ++ compress (8 • x • vrfPoint ed25519 pk msg')) ∨
      LuckyProof y pk p msg ∨ LuckyProof y pk p' msg' := by
  obtain ⟨x, hx, h8, hall⟩ := C164_one_output pk y hpk
  refine ⟨x, h8, ?_⟩
  intro p p' msg msg' out h h'
  rcases hall _ _ _ h with e | e
  · rcases hall _ _ _ h' with e' | e'
    · by_cases hc : compress (8 • x • vrfPoint ed25519 pk msg) = compress (8 • x • vrfPoint ed25519 pk msg')
      · left
        have hq := compress_injective hc
        rw [smul_smul, smul_smul] at hq
        refine cancel_order ?_ (elligator_order _) (elligator_order _) hq
        intro hd
        apply hy
        rw [h8, smul_smul]
        obtain ⟨k, hk⟩ := hd
        rw [hk, mul_comm, mul_smul, base_order, smul_zero]
      · right; left
        refine ⟨_, _, ?_, e.symm.trans e', rfl, rfl⟩
        intro he
        exact hc (List.append_cancel_left he)
    · exact Or.inr (Or.inr (Or.inr e'))
  · exact Or.inr (Or.inr (Or.inl e))

-- a key whose proofs are accepted: the one of the empty seed (that no key from a seed has small order is in `Ed25519Sig.lean`)
example : ∃ y : Pt, StandsFor (fromSeed ed25519 []).pub y ∧ ∃ p out, verifyBytes ed25519 (fromSeed ed25519 []).pub p [7] = .ok out :=
  ⟨_, (decompress_iff _ _).1 (decompress_compress _), _, _, (C24_curve25519 [] [7]).2⟩

/-! ## C166: a proof has one form -/

/-- **C166** is false: for every message two different proofs, with the same point, challenge and response, are accepted under
the blank key; they differ in the highest bit of the point, which is not looked at. -/
theorem C166_violated (msg : Bytes) :
    ∃ p p' : Bytes, p ≠ p' ∧ p.length = 80 ∧ p'.length = 80 ∧ p.drop 32 = p'.drop 32 ∧
      verifyBytes ed25519 blankKey p msg = .ok (Sha512.sha512 ([4, 3] ++ blankKey)) ∧
      verifyBytes ed25519 blankKey p' msg = .ok (Sha512.sha512 ([4, 3] ++ blankKey)) := by
  have hother : StandsFor (1 :: (List.replicate 30 0 ++ [128])) 0 := by
    have e1 : leVal (1 :: (List.replicate 30 0 ++ [128])) % 2 ^ 255 = 1 := by decide
    rw [StandsFor, e1]
    exact ⟨(Nat.cast_one (R := Fp)).symm, Or.inl rfl⟩
  refine ⟨_, _, ?_, ?_, ?_, ?_, blank_accepted blankKey msg rfl blankKey_zero,
    blank_accepted (1 :: (List.replicate 30 0 ++ [128])) msg rfl hother⟩
  · intro h
    have := List.append_cancel_right (List.append_cancel_right h)
    revert this
    decide
  · rw [List.length_append, List.length_append, leBytes_length, leBytes_length]; rfl
  · rw [List.length_append, List.length_append, leBytes_length, leBytes_length]; rfl
  · rw [List.append_assoc, List.append_assoc, List.drop_append_of_le_length (by decide),
      List.drop_append_of_le_length (by decide)]
    rfl

theorem leBytes_leVal (b : Bytes) : leBytes b.length (leVal b) = b := by
  induction b with
  | nil => rfl
  | cons x b ih =>
    have hx := x.toNat_lt
    rw [List.length_cons, leVal, leBytes, show (x.toNat + 256 * leVal b) / 256 = leVal b by omega, ih]
    congr 1
    apply UInt8.toNat_inj.1
    rw [UInt8.toNat_ofNat']
    omega

theorem leVal_injective {a b : Bytes} (hl : a.length = b.length) (h : leVal a = leVal b) : a = b := by
  rw [← leBytes_leVal a, ← leBytes_leVal b, hl, h]

/-- The bytes of a point are unique, except for the points with `x = 0` or with `y` below 19. -/
theorem one_encoding {a b : Bytes} {P : Pt} (ha : a.length = 32) (hb : b.length = 32) (h : StandsFor a P) (h' : StandsFor b P)
    (hx : P.x ≠ 0) (hy : 19 ≤ P.y.val) : a = b := by
  have key : ∀ c : Bytes, c.length = 32 → StandsFor c P → leVal c = P.y.val + 2 ^ 255 * (P.x.val % 2) := by
    rintro c hc ⟨h1, h2⟩
    have h2 := h2.resolve_left hx
    have hlt := leVal_lt c
    rw [hc] at hlt
    have e : (256 : Nat) ^ 32 = 2 * 2 ^ 255 := by decide
    have hv : P.y.val = leVal c % 2 ^ 255 % fieldSize := by rw [h1, ZMod.val_natCast]
    have hp : (2 : Nat) ^ 255 = fieldSize + 19 := by norm_num
    have hm : leVal c % 2 ^ 255 < 2 ^ 255 := Nat.mod_lt _ (by norm_num)
    have hd := Nat.div_add_mod (leVal c) (2 ^ 255)
    have hb2 : leVal c / 2 ^ 255 < 2 := Nat.div_lt_of_lt_mul (by omega)
    rw [Nat.mod_eq_of_lt hb2] at h2
    have hs : leVal c % 2 ^ 255 < fieldSize := by
      by_contra hge
      have : leVal c % 2 ^ 255 % fieldSize = leVal c % 2 ^ 255 - fieldSize := by
        rw [Nat.mod_eq_sub_mod (by omega), Nat.mod_eq_of_lt (by omega)]
      omega
    rw [Nat.mod_eq_of_lt hs] at hv
    rw [h2, hv]
    omega
  exact leVal_injective (ha.trans hb.symm) ((key a ha h).trans (key b hb h').symm)

/-- **C166**, what holds: if two different proofs for the same key and message are accepted with the same challenge, then either
SHA-512 begins with the same 16 bytes on two different explicit strings, or the proofs hold the same point, and it has
`x = 0` or `y` below 19. Missing: these few points, which have several forms. -/
theorem C166_one_form_partial (pk p p' msg out out' : Bytes) (y : Pt) (hpk : StandsFor pk y) (hne : p ≠ p')
    (hl : p.length = 80) (hl' : p'.length = 80) (hc : (p.drop 32).take 16 = (p'.drop 32).take 16)
    (h : verifyBytes ed25519 pk p msg = .ok out) (h' : verifyBytes ed25519 pk p' msg = .ok out') :
    (∃ a b : Bytes, a ≠ b ∧ a.length = 130 ∧ b.length = 130 ∧
      (Sha512.sha512 a).take 16 = (Sha512.sha512 b).take 16) ∨
    (∃ P : Pt, StandsFor (p.take 32) P ∧ StandsFor (p'.take 32) P ∧ p.drop 48 = p'.drop 48 ∧
      (P.x = 0 ∨ P.y.val < 19)) := by
  have hd := (decompress_iff pk y).2 hpk
  obtain ⟨g, c, s, hg, hc1, hs, hsl, hch, _⟩ := (C24_accepts_iff ed25519 ed25519_good pk p msg out y hd).1 h
  obtain ⟨g', c', s', hg', hc1', hs', hsl', hch', _⟩ := (C24_accepts_iff ed25519 ed25519_good pk p' msg out' y hd).1 h'
  have hcc : c = c' := by rw [← hc1, ← hc1', hc]
  subst hcc
  have hg := (decompress_iff _ _).1 hg
  have hg' := (decompress_iff _ _).1 hg'
  generalize vrfPoint ed25519 pk msg = H at hch hch'
  generalize hv : s • H - c • g = v at hch
  generalize hv' : s' • H - c • g' = v' at hch'
  have hlen : ∀ a b d e : Pt, ([4, 2] ++ compress a ++ compress b ++ compress d ++ compress e).length = 130 := by
    intro a b d e
    simp only [List.length_append, compress_length]
    rfl
  by_cases hstr : [4, 2] ++ compress H ++ compress g ++ compress (s • basePoint - c • y) ++ compress v =
      [4, 2] ++ compress H ++ compress g' ++ compress (s' • basePoint - c • y) ++ compress v'
  · right
    have i1 := List.append_inj' hstr (by rw [compress_length, compress_length])
    have i2 := List.append_inj' i1.1 (by rw [compress_length, compress_length])
    have i3 := List.append_inj' i2.1 (by rw [compress_length, compress_length])
    have eg := compress_injective i3.2
    subst eg
    have eu := compress_injective i2.2
    have es : s = s' := by
      have h1 : (s : ℤ) • basePoint = (s' : ℤ) • basePoint := by
        rw [natCast_zsmul, natCast_zsmul]; exact sub_left_injective eu
      have h2 := multiple_zero ((s : ℤ) - s') (by rw [sub_smul, h1, sub_self])
      have hsl : s < baseOrder := hsl
      have hsl' : s' < baseOrder := hsl'
      have := Int.eq_zero_of_abs_lt_dvd h2 (by rw [abs_lt]; omega)
      omega
    have hdrop : p.drop 48 = p'.drop 48 := by
      have l1 : (p.drop 48).length = 32 := by rw [List.length_drop, hl]
      have l2 : (p'.drop 48).length = 32 := by rw [List.length_drop, hl']
      rw [List.take_of_length_le (by omega)] at hs hs'
      exact leVal_injective (l1.trans l2.symm) (by rw [hs, hs', es])
    refine ⟨g, hg, hg', hdrop, ?_⟩
    by_contra hcon
    have hcon := not_or.1 hcon
    have hfirst := one_encoding (by rw [List.length_take, hl]; rfl) (by rw [List.length_take, hl']; rfl) hg hg' hcon.1 (by omega)
    apply hne
    have split : ∀ q : Bytes, q = q.take 32 ++ ((q.drop 32).take 16 ++ q.drop 48) := by
      intro q
      have : q.drop 48 = (q.drop 32).drop 16 := by rw [List.drop_drop]
      rw [this, List.take_append_drop, List.take_append_drop]
    rw [split p, split p', hfirst, hc, hdrop]
  · left
    refine ⟨_, _, hstr, hlen _ _ _ _, hlen _ _ _ _, ?_⟩
    have e := hch.trans hch'.symm
    simp only [vrfChallenge] at e
    refine leVal_injective ?_ e
    rw [List.length_take, List.length_take]
    exact congrArg (min 16) ((Sha512.sha512_length _).trans (Sha512.sha512_length _).symm)

/-- A case of `C164_one_output` and `C164_same_output`: the key of the empty seed and its own proof of the message 7, twice. -/
example : ∃ (y : Pt) (p out : Bytes), StandsFor (fromSeed ed25519 []).pub y ∧
    verifyBytes ed25519 (fromSeed ed25519 []).pub p [7] = .ok out ∧
    (out = out ∨ LuckyProof y (fromSeed ed25519 []).pub p [7] ∨ LuckyProof y (fromSeed ed25519 []).pub p [7]) ∧
    ∃ x : Nat, out = Sha512.sha512 ([4, 3] ++ compress (8 • x • vrfPoint ed25519 (fromSeed ed25519 []).pub [7])) ∨
      LuckyProof y (fromSeed ed25519 []).pub p [7] := by
  have hs := (decompress_iff (fromSeed ed25519 []).pub _).1 (decompress_compress _)
  have hv := (C24_curve25519 [] [7]).2
  obtain ⟨x, _, _, h⟩ := C164_one_output _ _ hs
  exact ⟨_, _, _, hs, hv, C164_same_output _ _ hs _ _ _ _ _ hv hv, x, h _ _ _ hv⟩

end Verif.Props
