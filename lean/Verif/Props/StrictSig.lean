import Verif.Props.Ed25519Sig
/-!
# C167: the strict verification, and which keys and signatures can be read
-/

namespace Verif.Props
open Verif Verif.Vrf Verif.Curve Verif.Edwards Verif.Sig Verif.Sha512 Verif.Msgpack Verif.Codec

attribute [local irreducible] Curve.compress Curve.decompress Sha512.sha512 sqrt?

/-- Specification: `Signs`, where additionally neither the key nor the commitment may have small order, and the commitment is given
by any 32 bytes that stand for it. -/
def SignsStrictly (pk msg sig : Bytes) : Prop :=
  ∃ (A R : Pt) (r rest : Bytes), StandsFor pk A ∧ StandsFor r R ∧ sig = r ++ rest ∧ r.length = 32 ∧ rest.length = 32 ∧
    leVal rest < baseOrder ∧ 8 • A ≠ 0 ∧ 8 • R ≠ 0 ∧
    leVal rest • basePoint = R + (leVal (sha512 (r ++ pk ++ msg)) % baseOrder) • A

/-- **C167**: exactly which one-time signatures are accepted by the strict verification. -/
theorem C167_strict_accepts_iff (pk msg sig : Bytes) : Sig.verifyStrict pk msg sig = true ↔ SignsStrictly pk msg sig := by
  constructor
  · intro h
    unfold Sig.verifyStrict at h
    cases hd : decompress pk with
    | none => rw [hd] at h; cases h
    | some A =>
      cases hr : decompress (sig.take 32) with
      | none => rw [hd, hr] at h; cases h
      | some R =>
        rw [hd, hr] at h
        simp only [Bool.and_eq_true, Bool.not_eq_true', smallOrder] at h
        obtain ⟨⟨⟨h1, h2⟩, h3⟩, h4⟩ := h
        obtain ⟨hl, hs⟩ := of_decide_eq_true h1
        refine ⟨A, R, sig.take 32, sig.drop 32, (decompress_iff _ _).1 hd, (decompress_iff _ _).1 hr,
          (List.take_append_drop _ _).symm, by rw [List.length_take, hl]; rfl, by rw [List.length_drop, hl], hs,
          of_decide_eq_false h3, of_decide_eq_false h2, ?_⟩
        have := of_decide_eq_true h4
        rw [← this]
        exact (sub_add_cancel _ _).symm
  · rintro ⟨A, R, r, rest, hA, hR, rfl, hr, hl, hs, hA8, hR8, he⟩
    have h1 : (r ++ rest).take 32 = r := by
      rw [List.take_append_of_le_length (by omega), List.take_of_length_le (by omega)]
    have h2 : (r ++ rest).drop 32 = rest := by
      rw [List.drop_append_of_le_length (by omega), List.drop_eq_nil_of_le (by omega), List.nil_append]
    unfold Sig.verifyStrict
    rw [h1, (decompress_iff _ _).2 hA, (decompress_iff _ _).2 hR]
    simp only [Bool.and_eq_true, Bool.not_eq_true', smallOrder]
    refine ⟨⟨⟨decide_eq_true ⟨by rw [List.length_append]; omega, ?_⟩, decide_eq_false hR8⟩, decide_eq_false hA8⟩, decide_eq_true ?_⟩
    · rw [h2]; exact hs
    · rw [h2, hashScalar, he, add_sub_cancel_right]

/-- **C167**: a one-time signature cannot be altered in its second half either. -/
theorem C167_strict_one_response (pk msg sig sig' : Bytes) (h : Sig.verifyStrict pk msg sig = true)
    (h' : Sig.verifyStrict pk msg sig' = true) (hR : sig.take 32 = sig'.take 32) : sig = sig' := by
  obtain ⟨A, R, r, rest, hA, hr, rfl, c1, hl, hs, _, _, he⟩ := (C167_strict_accepts_iff _ _ _).1 h
  obtain ⟨A', R', r', rest', hA', hr', rfl, c2, hl', hs', _, _, he'⟩ := (C167_strict_accepts_iff _ _ _).1 h'
  rw [List.take_append_of_le_length (by omega), List.take_of_length_le (by omega),
    List.take_append_of_le_length (by omega), List.take_of_length_le (by omega)] at hR
  subst hR
  have eA : A = A' := Option.some.inj (((decompress_iff _ _).2 hA).symm.trans ((decompress_iff _ _).2 hA'))
  have eR : R = R' := Option.some.inj (((decompress_iff _ _).2 hr).symm.trans ((decompress_iff _ _).2 hr'))
  subst eA eR
  have e : (leVal rest : ℤ) • basePoint = (leVal rest' : ℤ) • basePoint := by
    rw [natCast_zsmul, natCast_zsmul, he, he']
  have hd := multiple_zero ((leVal rest : ℤ) - leVal rest') (by rw [sub_smul, e, sub_self])
  have := Int.eq_zero_of_abs_lt_dvd hd (by rw [abs_lt]; omega)
  rw [leVal_injective (hl.trans hl'.symm) (by omega)]

/-- **C167**: what the strict verification accepts, the other accepts, if the commitment is in the form that `compress` writes; and
the reverse, if neither the key nor the commitment has small order. -/
theorem C167_strict_and_lenient (pk msg sig : Bytes) :
    (Sig.verifyStrict pk msg sig = true ∧ ∃ R : Pt, sig.take 32 = Curve.compress R) ↔
      (Sig.verify pk msg sig = true ∧ ∀ P : Pt, StandsFor pk P ∨ StandsFor (sig.take 32) P → 8 • P ≠ 0) := by
  rw [C167_strict_accepts_iff, C167_accepts_iff]
  constructor
  · rintro ⟨⟨A, R, r, rest, hA, hR, rfl, c1, hl, hs, hA8, hR8, he⟩, R', hc⟩
    have h1 : (r ++ rest).take 32 = r := by
      rw [List.take_append_of_le_length (by omega), List.take_of_length_le (by omega)]
    rw [h1] at hc ⊢
    subst hc
    have eR : R' = R := Option.some.inj ((decompress_compress R').symm.trans ((decompress_iff _ _).2 hR))
    subst eR
    refine ⟨⟨A, R', rest, hA, rfl, hl, hs, he⟩, ?_⟩
    rintro P (hP | hP)
    · rwa [← Option.some.inj (((decompress_iff _ _).2 hA).symm.trans ((decompress_iff _ _).2 hP))]
    · rwa [← Option.some.inj (((decompress_iff _ _).2 hR).symm.trans ((decompress_iff _ _).2 hP))]
  · rintro ⟨⟨A, R, rest, hA, rfl, hl, hs, he⟩, h8⟩
    have c1 := compress_length R
    have h1 : (Curve.compress R ++ rest).take 32 = Curve.compress R := by
      rw [List.take_append_of_le_length (by omega), List.take_of_length_le (by omega)]
    rw [h1] at h8 ⊢
    have hR : StandsFor (Curve.compress R) R := (decompress_iff _ _).1 (decompress_compress _)
    exact ⟨⟨A, R, Curve.compress R, rest, hA, hR, rfl, c1, hl, hs, h8 A (.inl hA), h8 R (.inr hR), he⟩, R, rfl⟩

/-- **C167**: exactly the byte strings of points are read as public keys, and exactly the strings of 64 bytes whose highest three bits
are zero as signatures. -/
theorem C167_keys_read (x : Bool) (b : Bytes) :
    (decPk (lib x) (.bin b) = some b ↔ b.length = 32 ∧ ∃ P : Pt, StandsFor b P) ∧
    (decSig (lib x) (bytesArr b) = some b ↔ b.length = 64 ∧ leVal (b.drop 32) < 2 ^ 253) := by
  have hs : (decompress b).isSome = true ↔ ∃ P : Pt, StandsFor b P := by
    rw [Option.isSome_iff_exists]
    exact exists_congr fun P => decompress_iff _ _
  constructor
  · rw [← hs]
    unfold decPk
    simp only [Option.bind_eq_bind, Option.bind_some]
    constructor
    · intro h
      split at h
      · rename_i hc
        exact ⟨hc.1, (Bool.and_eq_true_iff.1 hc.2).2⟩
      · cases h
    · rintro ⟨h1, h2⟩
      exact if_pos ⟨h1, Bool.and_eq_true_iff.2 ⟨decide_eq_true h1, h2⟩⟩
  · constructor
    · intro h
      unfold decSig at h
      simp only [Option.bind_eq_bind, Option.bind_eq_some_iff] at h
      obtain ⟨b', h1, h2⟩ := h
      split at h2
      · rename_i hc
        cases h2
        exact of_decide_eq_true hc
      · cases h2
    · intro h
      exact decSig_bytesArr ⟨h.1, decide_eq_true h⟩

-- a signature with a nonce other than zero is accepted by both verifications
example : SignsStrictly (publicKey (List.replicate 32 0)) [1] (Sig.sign (List.replicate 32 0) [1]) :=
  (C167_strict_accepts_iff _ _ _).1 ((C167_strict_iff _ _).2 (by decide +kernel))

/-- A case of `C167_strict_one_response`: a signature with another second half is refused. -/
example (sig' : Bytes) (hR : (Sig.sign (List.replicate 32 0) [1]).take 32 = sig'.take 32) (hne : sig' ≠ Sig.sign (List.replicate 32 0) [1]) :
    Sig.verifyStrict (publicKey (List.replicate 32 0)) [1] sig' = false := by
  cases h : Sig.verifyStrict (publicKey (List.replicate 32 0)) [1] sig' with
  | false => rfl
  | true => exact absurd (C167_strict_one_response _ _ _ _ ((C167_strict_iff _ _).2 (by decide +kernel)) h hR).symm hne

end Verif.Props
