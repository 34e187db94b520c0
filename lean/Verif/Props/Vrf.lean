import Verif.Model.Vrf
import Mathlib.Data.Nat.Prime.Basic
import Mathlib.Data.Int.GCD
import Mathlib.Data.ZMod.Basic
import Mathlib.GroupTheory.OrderOfElement
import Mathlib.Tactic.Abel
import Mathlib.Tactic.NormNum
import Mathlib.NumberTheory.LucasPrimality
import Mathlib.Tactic.Linarith
import Mathlib.RingTheory.Coprime.Lemmas
import Mathlib.RingTheory.PrincipalIdealDomain
import Mathlib.Algebra.Module.Basic
/-!
# Properties of the verifiable random function (C24)
-/

namespace Verif.Props
open Verif Verif.Vrf

theorem leVal_append (a b : Bytes) : leVal (a ++ b) = leVal a + 256 ^ a.length * leVal b := by
  induction a with
  | nil => simp [leVal]
  | cons x a ih => simp only [List.cons_append, leVal, ih, List.length_cons, Nat.pow_succ, Nat.mul_add]; grind

theorem leVal_zeros (n : Nat) : leVal (List.replicate n 0) = 0 := by
  induction n with
  | zero => rfl
  | succ n ih => rw [List.replicate_succ, leVal, ih]; rfl

theorem leVal_lt (a : Bytes) : leVal a < 256 ^ a.length := by
  induction a with
  | nil => simp [leVal]
  | cons x a ih =>
    have := x.toNat_lt
    rw [leVal, List.length_cons, Nat.pow_succ]; omega

theorem leBytes_length (len n : Nat) : (leBytes len n).length = len := by
  induction len generalizing n with
  | zero => rfl
  | succ k ih => simp [leBytes, ih]

theorem leVal_leBytes (len n : Nat) (h : n < 256 ^ len) : leVal (leBytes len n) = n := by
  induction len generalizing n with
  | zero => simp at h; subst h; rfl
  | succ k ih =>
    rw [Nat.pow_succ] at h
    rw [leBytes, leVal, ih _ (by omega), UInt8.toNat_ofNat']
    omega

theorem leBytes_take (a b n : Nat) (h : a ≤ b) : (leBytes b n).take a = leBytes a n := by
  induction a generalizing b n with
  | zero => rfl
  | succ a ih =>
    obtain ⟨b, rfl⟩ : ∃ b', b = b' + 1 := ⟨b - 1, by omega⟩
    rw [leBytes, leBytes, List.take_succ_cons, ih _ _ (by omega)]

/-- What is used about the curve and SHA-512: sizes, decompression inverts compression, the base point and
all points from the Elligator map lie in the subgroup of order `l`. -/
structure GoodCurve {G : Type} [AddCommGroup G] (C : Curve G) : Prop where
  compress_len : ∀ p, (C.compress p).length = 32
  decompress : ∀ p, C.decompress (C.compress p) = some p
  sha_len : ∀ b, (C.sha512 b).length = 64
  base_order : C.l • C.base = 0
  elligator_order : ∀ b, C.l • C.elligator b = 0
  l_low : 2 ^ 128 ≤ C.l
  l_high : C.l < 2 ^ 256

variable {G : Type} [AddCommGroup G]

theorem hashPoints_lt (C : Curve G) (hC : GoodCurve C) (ps : List G) : hashPoints C ps < 256 ^ 16 := by
  have h16 : ((C.sha512 ([4] ++ [2] ++ ps.flatMap C.compress)).take 16).length = 16 := by
    rw [List.length_take, hC.sha_len]; rfl
  rw [hashPoints, leVal_append, leVal_zeros, Nat.mul_zero, Nat.add_zero]
  have := leVal_lt ((C.sha512 ([4] ++ [2] ++ ps.flatMap C.compress)).take 16)
  rw [h16] at this
  exact Nat.lt_of_le_of_lt (Nat.mod_le _ _) this

theorem mod_smul (l n : Nat) (p : G) (h : l • p = 0) : (n % l) • p = n • p := by
  conv => rhs; rw [← Nat.mod_add_div n l, add_nsmul, mul_comm, mul_nsmul, ← mul_nsmul', mul_nsmul, h]
  simp

theorem decode_prove (C : Curve G) (hC : GoodCurve C) (gamma : G) (c s : Nat) (hc : c < 256 ^ 16) (hs : s < C.l) :
    decodeProof C (C.compress gamma ++ (leBytes 32 c).take 16 ++ leBytes 32 s) = some (gamma, c, s) := by
  have h1 := hC.compress_len gamma
  have hl := hC.l_low
  have hh := hC.l_high
  rw [leBytes_take 16 32 c (by omega)]
  have h2 := leBytes_length 16 c
  have h3 := leBytes_length 32 s
  have t1 : (C.compress gamma ++ leBytes 16 c ++ leBytes 32 s).take 32 = C.compress gamma := by
    rw [List.append_assoc, List.take_append_of_le_length (by omega), List.take_of_length_le (by omega)]
  have t2 : ((C.compress gamma ++ leBytes 16 c ++ leBytes 32 s).drop 32).take 16 = leBytes 16 c := by
    rw [List.append_assoc, List.drop_append_of_le_length (by omega), List.drop_eq_nil_of_le (by omega),
      List.nil_append, List.take_append_of_le_length (by omega), List.take_of_length_le (by omega)]
  have t3 : ((C.compress gamma ++ leBytes 16 c ++ leBytes 32 s).drop 48).take 32 = leBytes 32 s := by
    rw [List.drop_append_of_le_length (by rw [List.length_append]; omega),
      List.drop_eq_nil_of_le (by rw [List.length_append]; omega), List.nil_append, List.take_of_length_le (by omega)]
  have e1 : (256 : Nat) ^ 16 = 2 ^ 128 := by decide
  have e2 : (256 : Nat) ^ 32 = 2 ^ 256 := by decide
  have v2 : leVal (leBytes 16 c ++ List.replicate 16 0) = c := by
    rw [leVal_append, leVal_zeros, Nat.mul_zero, Nat.add_zero, leVal_leBytes _ _ hc]
  have v3 : leVal (leBytes 32 s) = s := leVal_leBytes _ _ (by omega)
  rw [decodeProof, t1, t2, t3, hC.decompress, fromCanonical, v2, if_pos (by omega), fromCanonical, v3, if_pos hs]
  rfl

/-- C24: a proof made with a key pair is 80 bytes long, verifies under its public key, and the output is the one
computed from the proof, which is determined by the key and the message alone: the hash of the point `8·x·H`. -/
theorem C24_prove_verifies (C : Curve G) (hC : GoodCurve C) (seed msg : Bytes) :
    (proveBytes C (fromSeed C seed) msg).length = 80 ∧
    verifyBytes C (fromSeed C seed).pub (proveBytes C (fromSeed C seed) msg) msg =
      toOutput C (proveBytes C (fromSeed C seed) msg) ∧
    toOutput C (proveBytes C (fromSeed C seed) msg) = .ok (C.sha512 ([4, 3] ++ C.compress
      (8 • secretScalar C seed • hashToCurve C (fromSeed C seed).pub msg))) := by
  have hl := hC.l_low
  have hpos : 0 < C.l := Nat.lt_of_lt_of_le (by decide) hl
  have hpr : (fromSeed C seed).priv = seed := rfl
  have hH : C.l • hashToCurve C (fromSeed C seed).pub msg = 0 := hC.elligator_order _
  have hdpk : C.decompress (fromSeed C seed).pub = some (secretScalar C seed • C.base) := hC.decompress _
  rw [proveBytes]
  simp only [hpr]
  generalize hh : hashToCurve C (fromSeed C seed).pub msg = H at hH ⊢
  generalize genNonce C seed (C.compress H) = k
  generalize secretScalar C seed = x at hdpk ⊢
  generalize hc : hashPoints C [H, x • H, k • C.base, k • H] = c
  have hclt : c < 256 ^ 16 := by rw [← hc]; exact hashPoints_lt C hC _
  have hdec := decode_prove C hC (x • H) c ((k + c * x) % C.l) hclt (Nat.mod_lt _ hpos)
  refine ⟨?_, ?_, ?_⟩
  · simp [hC.compress_len, leBytes_length]
  · rw [verifyBytes, hdec]
    simp only [hh, hdpk]
    rw [if_pos]
    have cancel : ∀ p : G, C.l • p = 0 → ((k + c * x) % C.l) • p - c • x • p = k • p := by
      intro p hp
      rw [mod_smul _ _ _ hp, add_nsmul, ← mul_nsmul, Nat.mul_comm x c, add_sub_cancel_right]
    rw [cancel _ hC.base_order, cancel _ hH, hc]
  · rw [toOutput, hdec]
    rfl

/-- C24: an accepted proof gives the output computed from the proof alone. -/
theorem C24_output_of_accepted (C : Curve G) (pk proof msg out : Bytes) (h : verifyBytes C pk proof msg = .ok out) :
    toOutput C proof = .ok out := by
  rw [verifyBytes] at h
  cases hd : decodeProof C proof with
  | none => rw [hd] at h; cases h
  | some t =>
    obtain ⟨g, c, s⟩ := t
    rw [hd] at h
    simp only at h
    cases hp : C.decompress pk with
    | none => rw [hp] at h; cases h
    | some y =>
      rw [hp] at h
      simp only at h
      split at h
      · exact h
      · cases h

/-- C24: two accepted proofs, for whatever keys and messages, whose curve points agree (up to the cofactor) give
the same output. -/
theorem C24_same_gamma_same_output (C : Curve G) (pk pk' p p' msg msg' out out' : Bytes)
    (h : verifyBytes C pk p msg = .ok out) (h' : verifyBytes C pk' p' msg' = .ok out')
    (g g' : G) (hg : C.decompress (p.take 32) = some g) (hg' : C.decompress (p'.take 32) = some g')
    (heq : 8 • g = 8 • g') : out = out' := by
  have ho := C24_output_of_accepted C pk p msg out h
  have ho' := C24_output_of_accepted C pk' p' msg' out' h'
  have key : ∀ (q : Bytes) (z : G) (o : Bytes), toOutput C q = .ok o → C.decompress (q.take 32) = some z →
      o = C.sha512 ([4] ++ [3] ++ C.compress (8 • z)) := by
    intro q z o h1 h2
    rw [toOutput] at h1
    cases hd : decodeProof C q with
    | none => rw [hd] at h1; cases h1
    | some t =>
      obtain ⟨g1, c, s⟩ := t
      rw [hd] at h1
      simp only at h1
      injection h1 with h1
      have : g1 = z := by
        rw [decodeProof, h2] at hd
        simp only [Option.bind_eq_bind, Option.bind_some, Option.bind_eq_some_iff] at hd
        obtain ⟨_, _, _, _, e⟩ := hd
        cases e; rfl
      rw [← h1, this]
  rw [key p g out ho hg, key p' g' out' ho' hg', heq]

/-- C24: verification never accepts a proof whose curve point or scalars are not canonical encodings, and panics
only when the public key is not a curve point. -/
theorem C24_verify_total (C : Curve G) (pk proof msg : Bytes) (hpk : C.decompress pk ≠ none) :
    verifyBytes C pk proof msg ≠ .panic ∧
    (decodeProof C proof = none → verifyBytes C pk proof msg = .err .invalidProof) := by
  constructor
  · rw [verifyBytes]
    cases hd : decodeProof C proof with
    | none => simp
    | some t =>
      obtain ⟨g, c, s⟩ := t
      cases hp : C.decompress pk with
      | none => exact absurd hp hpk
      | some y =>
        simp only
        split
        · rw [toOutput, hd]; simp
        · simp
  · intro h; rw [verifyBytes, h]

/-- C24: uniqueness. Take a public key that is a multiple `x` of the base point, and a point `gamma` for which
there are two accepted challenge-response pairs with the same commitments `u`, `v` but different challenges (which is
what a prover not knowing how to answer only one lucky challenge can produce). Then `8·gamma` is the honest point, so
the output is the honest output. -/
theorem C24_special_soundness (C : Curve G) (hprime : Nat.Prime C.l)
    (hbase : ∀ n : ℤ, n • C.base = 0 → (C.l : ℤ) ∣ n) (hall : ∀ p : G, (8 * C.l) • p = 0)
    (H gamma : G) (hH : C.l • H = 0) (x c c' s s' : Nat) (hc : c < C.l) (hc' : c' < C.l) (hne : c ≠ c')
    (hu : s • C.base - c • x • C.base = s' • C.base - c' • x • C.base)
    (hv : s • H - c • gamma = s' • H - c' • gamma) :
    8 • gamma = 8 • x • H := by
  -- work with integers
  have hu' : ((s : ℤ) - s' - (c - c') * x) • C.base = 0 := by
    have : ((s : ℤ) - s' - (c - c') * x) • C.base =
        (s • C.base - c • x • C.base) - (s' • C.base - c' • x • C.base) := by
      simp only [sub_smul, mul_smul, natCast_zsmul]; abel
    rw [this, hu, sub_self]
  obtain ⟨m, hm⟩ := hbase _ hu'
  have hHz : (C.l : ℤ) • H = 0 := by rw [natCast_zsmul]; exact hH
  have hs : ((s : ℤ) - s') • H = ((c : ℤ) - c') • (x : ℤ) • H := by
    have : ((s : ℤ) - s') = (c - c') * x + m * C.l := by rw [mul_comm m]; linarith
    rw [this, add_smul, mul_smul, mul_smul, hHz, smul_zero, add_zero]
  have hv' : ((s : ℤ) - s') • H = ((c : ℤ) - c') • gamma := by
    have : ((s : ℤ) - s') • H - ((c : ℤ) - c') • gamma = (s • H - c • gamma) - (s' • H - c' • gamma) := by
      simp only [sub_smul, natCast_zsmul]; abel
    rw [hv, sub_self] at this
    exact sub_eq_zero.1 this
  have hD1 : ((c : ℤ) - c') • (8 • gamma - 8 • x • H) = 0 := by
    have : ((c : ℤ) - c') • (8 • gamma - 8 • x • H) =
        8 • (((c : ℤ) - c') • gamma - ((c : ℤ) - c') • (x : ℤ) • H) := by
      rw [natCast_zsmul, ← smul_sub, ← smul_sub, smul_comm]
    rw [this, ← hv', hs, sub_self, smul_zero]
  have hD2 : (C.l : ℤ) • (8 • gamma - 8 • x • H) = 0 := by
    rw [natCast_zsmul, smul_sub, ← mul_smul, Nat.mul_comm, hall, smul_comm C.l 8, smul_comm C.l x, hH]
    simp
  have hcop : IsCoprime ((c : ℤ) - c') (C.l : ℤ) := by
    rw [Int.isCoprime_iff_gcd_eq_one, Int.gcd_comm]
    have hdvd : ¬ (C.l : ℤ) ∣ ((c : ℤ) - c') := by
      intro hd
      have := Int.eq_zero_of_abs_lt_dvd hd (by rw [abs_lt]; omega)
      omega
    rw [Int.gcd_eq_natAbs, Int.natAbs_natCast]
    exact (Nat.Prime.coprime_iff_not_dvd hprime).2 (fun h => hdvd (Int.natCast_dvd.2 h))
  obtain ⟨a, b, hab⟩ := hcop
  have : (1 : ℤ) • (8 • gamma - 8 • x • H) = 0 := by
    rw [← hab, add_smul, mul_smul, mul_smul, hD1, hD2]; simp
  rw [one_smul] at this
  exact sub_eq_zero.1 this

/-- Specification (draft-irtf-cfrg-vrf-03, sections 5.2, 5.3): the point a key and a message are mapped to. -/
def vrfPoint (C : Curve G) (pk msg : Bytes) : G :=
  C.elligator ((C.sha512 ([4, 1] ++ pk ++ msg)).modify 31 (· &&& 0x7F))

/-- Specification: the challenge for a mapped point, a proof point and two commitments. -/
def vrfChallenge (C : Curve G) (h gamma u v : G) : Nat :=
  leVal ((C.sha512 ([4, 2] ++ C.compress h ++ C.compress gamma ++ C.compress u ++ C.compress v)).take 16)

theorem hashPoints_spec (C : Curve G) (hC : GoodCurve C) (h gamma u v : G) :
    hashPoints C [h, gamma, u, v] = vrfChallenge C h gamma u v := by
  have hl := hC.l_low
  have h16 : ((C.sha512 ([4, 2] ++ C.compress h ++ C.compress gamma ++ C.compress u ++ C.compress v)).take
      16).length = 16 := by
    rw [List.length_take, hC.sha_len]; rfl
  have := leVal_lt ((C.sha512 ([4, 2] ++ C.compress h ++ C.compress gamma ++ C.compress u ++ C.compress v)).take 16)
  rw [h16] at this
  have e : (256 : Nat) ^ 16 = 2 ^ 128 := by decide
  rw [hashPoints, vrfChallenge, leVal_append, leVal_zeros, Nat.mul_zero, Nat.add_zero]
  have hs : [4] ++ [2] ++ [h, gamma, u, v].flatMap C.compress =
      [4, 2] ++ C.compress h ++ C.compress gamma ++ C.compress u ++ C.compress v := by
    simp
  rw [hs, Nat.mod_eq_of_lt (by omega)]

/-- C24: exactly which proofs are accepted, and with which output: the proof holds a point `gamma`, a challenge `c`
and a response `s` below the group order, the challenge is the hash of the mapped point, of `gamma` and of the
commitments `s·B - c·Y` and `s·H - c·gamma`, and the output is the hash of `8·gamma`. -/
theorem C24_accepts_iff (C : Curve G) (hC : GoodCurve C) (pk proof msg out : Bytes) (y : G)
    (hpk : C.decompress pk = some y) :
    verifyBytes C pk proof msg = .ok out ↔
      ∃ gamma : G, ∃ c s : Nat, C.decompress (proof.take 32) = some gamma ∧
        leVal ((proof.drop 32).take 16) = c ∧ leVal ((proof.drop 48).take 32) = s ∧ s < C.l ∧
        vrfChallenge C (vrfPoint C pk msg) gamma (s • C.base - c • y)
          (s • vrfPoint C pk msg - c • gamma) = c ∧
        out = C.sha512 ([4, 3] ++ C.compress (8 • gamma)) := by
  have hl := hC.l_low
  have hH : hashToCurve C pk msg = vrfPoint C pk msg := rfl
  have hc : leVal ((proof.drop 32).take 16 ++ List.replicate 16 0) = leVal ((proof.drop 32).take 16) := by
    rw [leVal_append, leVal_zeros, Nat.mul_zero, Nat.add_zero]
  have hclt : leVal ((proof.drop 32).take 16) < C.l := by
    have h1 := leVal_lt ((proof.drop 32).take 16)
    have h2 : (256 : Nat) ^ ((proof.drop 32).take 16).length ≤ 256 ^ 16 :=
      Nat.pow_le_pow_right (by decide) (by rw [List.length_take]; exact Nat.min_le_left _ _)
    have e : (256 : Nat) ^ 16 = 2 ^ 128 := by decide
    omega
  constructor
  · intro h
    have ho := C24_output_of_accepted C pk proof msg out h
    rw [verifyBytes] at h
    cases hd : decodeProof C proof with
    | none => rw [hd] at h; cases h
    | some t =>
      obtain ⟨g, c, s⟩ := t
      rw [hd] at h
      simp only [hpk] at h
      rw [toOutput, hd] at ho
      simp only [Res.ok.injEq] at ho
      simp only [decodeProof, Option.bind_eq_bind, Option.bind_eq_some_iff, fromCanonical] at hd
      obtain ⟨g', hg, c', hc', s', hs', e⟩ := hd
      cases e
      split at h
      · rename_i hch
        rw [hashPoints_spec C hC, hH] at hch
        split at hc'
        · split at hs'
          · rename_i hs2
            cases hc'; cases hs'
            refine ⟨g, _, _, hg, rfl, rfl, hs2, ?_, ho.symm⟩
            rw [hc] at hch
            exact hch
          · cases hs'
        · cases hc'
      · cases h
  · rintro ⟨gamma, c, s, hg, rfl, rfl, hs, hch, rfl⟩
    have hd : decodeProof C proof =
        some (gamma, leVal ((proof.drop 32).take 16), leVal ((proof.drop 48).take 32)) := by
      simp only [decodeProof, hg, fromCanonical, hc, if_pos hclt, if_pos hs]
      rfl
    rw [verifyBytes, hd]
    simp only [hpk]
    rw [hashPoints_spec C hC, hH, if_pos hch, toOutput, hd]
    rfl

/-- C24: uniqueness of the output. Take a key `Y = x·B` and an accepted proof whose output is not the one the owner of
the key computes. Then the challenge in the proof, although it is a hash of the commitments, is the single
challenge that can be answered at all for these commitments: every other pair of a challenge and a response fails. So
such a proof needs a hash that hits one particular value. -/
theorem C24_other_output_is_lucky (C : Curve G) (hC : GoodCurve C) (hprime : Nat.Prime C.l)
    (hbase : ∀ n : ℤ, n • C.base = 0 → (C.l : ℤ) ∣ n) (hall : ∀ p : G, (8 * C.l) • p = 0)
    (pk proof msg out : Bytes) (x : Nat) (hpk : C.decompress pk = some (x • C.base))
    (h : verifyBytes C pk proof msg = .ok out)
    (hother : out ≠ C.sha512 ([4, 3] ++ C.compress (8 • x • vrfPoint C pk msg))) :
    ∃ gamma u v : G, C.decompress (proof.take 32) = some gamma ∧
      leVal ((proof.drop 32).take 16) = vrfChallenge C (vrfPoint C pk msg) gamma u v ∧
      ∀ c' s' : Nat, c' < C.l → s' • C.base - c' • x • C.base = u →
        s' • vrfPoint C pk msg - c' • gamma = v → c' = vrfChallenge C (vrfPoint C pk msg) gamma u v := by
  obtain ⟨gamma, c, s, hg, hc, hs, hsl, hch, ho⟩ := (C24_accepts_iff C hC pk proof msg out _ hpk).1 h
  have hl := hC.l_low
  refine ⟨gamma, _, _, hg, hc.trans hch.symm, ?_⟩
  intro c' s' hc' hu hv
  rw [hch]
  by_contra hne
  have hclt : c < C.l := by
    rw [← hc]
    have h1 := leVal_lt ((proof.drop 32).take 16)
    have h2 : (256 : Nat) ^ ((proof.drop 32).take 16).length ≤ 256 ^ 16 :=
      Nat.pow_le_pow_right (by decide) (by rw [List.length_take]; exact Nat.min_le_left _ _)
    have e : (256 : Nat) ^ 16 = 2 ^ 128 := by decide
    omega
  have := C24_special_soundness C hprime hbase hall (vrfPoint C pk msg) gamma (hC.elligator_order _) x c' c s' s
    hc' hclt hne hu hv
  exact hother (by rw [ho, this])

theorem low_cleared (x : UInt8) : (x &&& 248).toNat = x.toNat / 8 * 8 := by
  have h : ∀ n : Fin 256, (UInt8.ofNat n.val &&& 248).toNat = n.val / 8 * 8 := by decide +kernel
  have := h ⟨x.toNat, x.toNat_lt⟩
  rwa [UInt8.ofNat_toNat] at this

theorem high_set (x : UInt8) : ((x &&& 63) ||| 64).toNat = x.toNat % 64 + 64 := by
  have h : ∀ n : Fin 256, ((UInt8.ofNat n.val &&& 63) ||| 64).toNat = n.val % 64 + 64 := by decide +kernel
  have := h ⟨x.toNat, x.toNat_lt⟩
  rwa [UInt8.ofNat_toNat] at this

/-- **C24**, the secret scalar (RFC 8032, section 5.1.5): of the first 256 bits of the hash of the seed, the three lowest and
the two highest are replaced: the scalar is a multiple of 8 between `2^254` and `2^255`, with the bits 3 to 253 of the
hash. -/
theorem C24_secret_scalar (C : Curve G) (hsha : ∀ b, (C.sha512 b).length = 64) (seed : Bytes) :
    secretScalar C seed = 2 ^ 254 + leVal ((C.sha512 seed).take 32) % 2 ^ 254 / 8 * 8 := by
  rw [secretScalar]
  have hl : ((C.sha512 seed).take 32).length = 32 := by rw [List.length_take, hsha]; rfl
  generalize (C.sha512 seed).take 32 = b at hl
  obtain ⟨x, b, rfl⟩ : ∃ x b', b = x :: b' := by
    cases b with
    | nil => cases hl
    | cons x b => exact ⟨x, b, rfl⟩
  have hb : b.length = 31 := by simpa using hl
  obtain ⟨m, y, rfl⟩ : ∃ m y, b = m ++ [y] := by
    refine ⟨b.dropLast, b.getLast (by intro h; rw [h] at hb; cases hb), ?_⟩
    rw [List.dropLast_append_getLast]
  have hm : m.length = 30 := by simpa using hb
  have hc : clamp (x :: (m ++ [y])) = (x &&& 248) :: (m ++ [(y &&& 63) ||| 64]) := by
    have e : (m ++ [y]).modify 30 (fun x => (x &&& 63) ||| 64) = m ++ [(y &&& 63) ||| 64] := by
      rw [List.modify_eq_take_cons_drop (by simp [hm]), List.take_append_of_le_length (by omega), List.take_of_length_le (by omega),
        List.getElem_append_right (by omega)]
      simp [hm]
    rw [clamp, List.modify_zero_cons, List.modify_succ_cons, e]
  rw [hc, leVal, leVal, leVal_append, leVal_append, hm, low_cleared]
  have hlm := leVal_lt m
  rw [hm] at hlm
  simp only [leVal, high_set]
  have hy := y.toNat_lt
  have hx := x.toNat_lt
  generalize leVal m = v at hlm ⊢
  have e1 : (256 : Nat) ^ 30 = 2 ^ 240 := by decide
  have e2 : (2 : Nat) ^ 254 = 16384 * 2 ^ 240 := by decide
  rw [e1] at hlm
  simp only [List.length_nil, Nat.pow_zero, List.length_singleton, Nat.mul_zero, Nat.add_zero, e1, e2]
  have hT : 0 < (2 : Nat) ^ 240 := by decide
  generalize (2 : Nat) ^ 240 = T at hlm hT ⊢
  obtain ⟨q, r, hr, hq⟩ : ∃ q r, r < 64 ∧ y.toNat = 64 * q + r := ⟨y.toNat / 64, y.toNat % 64, by omega, by omega⟩
  have hr' : y.toNat % 64 = r := by omega
  rw [hr', hq]
  have hP : T * r ≤ T * 63 := Nat.mul_le_mul_left _ (by omega)
  have e3 : x.toNat + 256 * (v + T * (64 * q + r)) = (x.toNat + 256 * (v + T * r)) + (16384 * T) * q := by ring
  have e4 : T * (r + 64) = T * r + 64 * T := by ring
  rw [e3, Nat.add_mul_mod_self_left, e4]
  generalize T * r = P at hP ⊢
  rw [Nat.mod_eq_of_lt (by omega)]
  omega

/-- A hash of zeros gives the scalar `2^254`. -/
example (C : Curve G) (hsha : ∀ b, C.sha512 b = List.replicate 64 0) (seed : Bytes) : secretScalar C seed = 2 ^ 254 := by
  rw [C24_secret_scalar C (fun b => by rw [hsha]; rfl), hsha]
  rfl

/-- Specification (section 5.4.2.2, RFC 8032 section 5.1.6): the nonce for a secret key and a mapped point. -/
def vrfNonce (C : Curve G) (seed : Bytes) (h : G) : Nat :=
  leVal (C.sha512 ((C.sha512 seed).drop 32 ++ C.compress h)) % C.l

/-- C24: the proof that is computed: the point `x·H`, the challenge for the commitments `k·B` and `k·H`, and the response
`k + c·x` modulo the group order, where `k` is the nonce. -/
theorem C24_prove_spec (C : Curve G) (hC : GoodCurve C) (seed msg : Bytes) :
    ∃ h : G, ∃ k c : Nat, h = vrfPoint C (fromSeed C seed).pub msg ∧ k = vrfNonce C seed h ∧
      c = vrfChallenge C h (secretScalar C seed • h) (k • C.base) (k • h) ∧
      (proveBytes C (fromSeed C seed) msg).take 32 = C.compress (secretScalar C seed • h) ∧
      leVal (((proveBytes C (fromSeed C seed) msg).drop 32).take 16) = c ∧
      leVal (((proveBytes C (fromSeed C seed) msg).drop 48).take 32) = (k + c * secretScalar C seed) % C.l := by
  refine ⟨_, _, _, rfl, rfl, rfl, ?_⟩
  have hpos : 0 < C.l := Nat.lt_of_lt_of_le (by decide) hC.l_low
  generalize hh : vrfPoint C (fromSeed C seed).pub msg = h
  generalize hk : vrfNonce C seed h = k
  generalize hx : secretScalar C seed = x
  have hc := hashPoints_spec C hC h (x • h) (k • C.base) (k • h)
  generalize vrfChallenge C h (x • h) (k • C.base) (k • h) = c at hc ⊢
  have hclt : c < 256 ^ 16 := by rw [← hc]; exact hashPoints_lt C hC _
  have hpf : proveBytes C (fromSeed C seed) msg =
      C.compress (x • h) ++ (leBytes 32 c).take 16 ++ leBytes 32 ((k + c * x) % C.l) := by
    have h1 : hashToCurve C (fromSeed C seed).pub msg = h := hh
    have h2 : genNonce C seed (C.compress h) = k := hk
    have h3 : (fromSeed C seed).priv = seed := rfl
    rw [proveBytes]
    simp only [h1, h3, h2, hx, hc]
  have h1 := hC.compress_len (x • h)
  rw [leBytes_take 16 32 c (by omega)] at hpf
  have h2 := leBytes_length 16 c
  have h3 := leBytes_length 32 ((k + c * x) % C.l)
  have hs : (k + c * x) % C.l < 256 ^ 32 := by
    have := Nat.mod_lt (k + c * x) hpos
    have := hC.l_high
    have e2 : (256 : Nat) ^ 32 = 2 ^ 256 := by decide
    omega
  rw [hpf]
  refine ⟨?_, ?_, ?_⟩
  · rw [List.append_assoc, List.take_append_of_le_length (by omega), List.take_of_length_le (by omega)]
  · rw [List.append_assoc, List.drop_append_of_le_length (by omega), List.drop_eq_nil_of_le (by omega),
      List.nil_append, List.take_append_of_le_length (by omega), List.take_of_length_le (by omega),
      leVal_leBytes _ _ hclt]
  · rw [List.drop_append_of_le_length (by rw [List.length_append]; omega),
      List.drop_eq_nil_of_le (by rw [List.length_append]; omega), List.nil_append, List.take_of_length_le (by omega),
      leVal_leBytes _ _ hs]

/-- C24: two messages mapped to different points get the same nonce (which would reveal the key) only if two
different strings, each the secret prefix followed by one of the points, have the same reduced hash. -/
theorem C24_nonce_reuse (C : Curve G) (hC : GoodCurve C) (seed : Bytes) (h₁ h₂ : G) (hne : h₁ ≠ h₂)
    (heq : vrfNonce C seed h₁ = vrfNonce C seed h₂) :
    ∃ a b : Bytes, a ≠ b ∧ leVal (C.sha512 a) % C.l = leVal (C.sha512 b) % C.l ∧
      a = (C.sha512 seed).drop 32 ++ C.compress h₁ ∧ b = (C.sha512 seed).drop 32 ++ C.compress h₂ := by
  refine ⟨_, _, ?_, heq, rfl, rfl⟩
  intro e
  have := hC.decompress h₁
  rw [List.append_cancel_left e, hC.decompress] at this
  exact hne (Option.some.inj this).symm

/-- Example curve: the integers modulo `2^128`. -/
def toyCurve : Curve (ZMod (2 ^ 128)) where
  base := 1
  l := 2 ^ 128
  compress p := leBytes 32 p.val
  decompress b := some ((leVal b : Nat) : ZMod (2 ^ 128))
  elligator b := ((leVal b : Nat) : ZMod (2 ^ 128))
  sha512 b := (b ++ List.replicate 64 0).take 64

-- the assumptions on the curve can be met
theorem toyCurve_good : GoodCurve toyCurve where
  compress_len p := leBytes_length _ _
  decompress p := by
    have hlt : p.val < 256 ^ 32 := Nat.lt_of_lt_of_le (ZMod.val_lt p) (by decide)
    simp only [toyCurve]
    rw [leVal_leBytes _ _ hlt, ZMod.natCast_zmod_val]
  sha_len b := by simp [toyCurve]
  base_order := by simp only [toyCurve]; rw [nsmul_eq_mul, ZMod.natCast_self, zero_mul]
  elligator_order b := by simp only [toyCurve]; rw [nsmul_eq_mul, ZMod.natCast_self, zero_mul]
  l_low := le_refl _
  l_high := by simp only [toyCurve]; decide

-- and those of the uniqueness theorem: integers modulo 7, `x = 2`, `H = 3`, `gamma = 6`
example : Nat.Prime 7 ∧ (∀ p : ZMod 7, (8 * 7) • p = 0) ∧ (7 : Nat) • (3 : ZMod 7) = 0 ∧
    (7 : Nat) • (1 : ZMod 7) - 1 • 2 • (1 : ZMod 7) = 9 • (1 : ZMod 7) - 2 • 2 • (1 : ZMod 7) ∧
    (7 : Nat) • (3 : ZMod 7) - 1 • (6 : ZMod 7) = 9 • (3 : ZMod 7) - 2 • (6 : ZMod 7) := by
  refine ⟨by decide, by decide, by decide, by decide, by decide⟩

/-! An instance of all hypotheses of `C24_other_output_is_lucky`: a group of prime order above `2^128`. -/

/-- A prime with a known factorisation of its predecessor. -/
def luckyPrime : Nat := 5 * 2 ^ 127 + 1

/-- Repeated squaring modulo `luckyPrime`. -/
def sqIter : Nat → Nat → Nat
  | 0, a => a
  | n + 1, a => sqIter n (a * a % luckyPrime)

theorem sqIter_spec (n a : Nat) : (a : ZMod luckyPrime) ^ (2 ^ n) = (sqIter n a : Nat) := by
  induction n generalizing a with
  | zero => simp [sqIter]
  | succ n ih =>
    rw [sqIter, ← ih, ZMod.natCast_mod, Nat.cast_mul, pow_succ', pow_mul, pow_two]

theorem luckyPrime_prime : Nat.Prime luckyPrime := by
  have h5 : luckyPrime - 1 = 5 * 2 ^ 127 := rfl
  have val : ∀ a b : Nat, a < luckyPrime → b < luckyPrime → a ≠ b → (a : ZMod luckyPrime) ≠ (b : ZMod luckyPrime) := by
    intro a b ha hb hne h
    rw [ZMod.natCast_eq_natCast_iff', Nat.mod_eq_of_lt ha, Nat.mod_eq_of_lt hb] at h
    exact hne h
  have key : ∀ n, ((17 : Nat) : ZMod luckyPrime) ^ (5 * 2 ^ n) = (sqIter n 1419857 : Nat) := by
    intro n
    rw [pow_mul, ← sqIter_spec]
    norm_num
  refine lucas_primality luckyPrime ((17 : Nat) : ZMod luckyPrime) ?_ ?_
  · rw [h5, key]
    have : sqIter 127 1419857 = 1 := by decide +kernel
    rw [this]; simp
  · intro q hq hdvd
    rw [h5] at hdvd ⊢
    rcases (Nat.Prime.dvd_mul hq).1 hdvd with h | h
    · rw [(Nat.prime_dvd_prime_iff_eq hq (by decide)).1 h]
      rw [Nat.mul_div_cancel_left _ (by decide), sqIter_spec]
      have := val (sqIter 127 17) 1 (by decide +kernel) (by decide +kernel) (by decide +kernel)
      rwa [Nat.cast_one] at this
    · rw [(Nat.prime_dvd_prime_iff_eq hq (by decide)).1 (hq.dvd_of_dvd_pow h)]
      rw [show 5 * 2 ^ 127 / 2 = 5 * 2 ^ 126 by decide +kernel, key]
      have := val (sqIter 126 1419857) 1 (by decide +kernel) (by decide +kernel) (by decide +kernel)
      rwa [Nat.cast_one] at this

/-- A curve with a bad hash (challenges are always zero), on which such a proof exists. -/
def luckyCurve : Curve (ZMod luckyPrime) where
  base := 1
  l := luckyPrime
  compress p := leBytes 32 p.val
  decompress b := some ((leVal b : Nat) : ZMod luckyPrime)
  elligator _ := 3
  sha512 b := if b.take 2 = [4, 3] then (b.drop 2 ++ List.replicate 64 0).take 64 else List.replicate 64 0

theorem luckyCurve_good : GoodCurve luckyCurve where
  compress_len p := leBytes_length _ _
  decompress p := by
    have : NeZero luckyPrime := ⟨by decide⟩
    have hlt : p.val < 256 ^ 32 := Nat.lt_of_lt_of_le (ZMod.val_lt p) (by decide)
    simp only [luckyCurve]
    rw [leVal_leBytes _ _ hlt, ZMod.natCast_zmod_val]
  sha_len b := by simp only [luckyCurve]; split <;> simp
  base_order := by simp only [luckyCurve]; rw [nsmul_eq_mul, ZMod.natCast_self, zero_mul]
  elligator_order b := by simp only [luckyCurve]; rw [nsmul_eq_mul, ZMod.natCast_self, zero_mul]
  l_low := by simp only [luckyCurve]; decide
  l_high := by simp only [luckyCurve]; decide

example : Nat.Prime luckyCurve.l ∧ (∀ n : ℤ, n • luckyCurve.base = 0 → (luckyCurve.l : ℤ) ∣ n) ∧
    (∀ p : ZMod luckyPrime, (8 * luckyCurve.l) • p = 0) ∧
    ∃ pk proof : Bytes, luckyCurve.decompress pk = some (2 • luckyCurve.base) ∧
      ∃ out, verifyBytes luckyCurve pk proof [] = .ok out ∧
        out ≠ luckyCurve.sha512 ([4, 3] ++ luckyCurve.compress (8 • 2 • vrfPoint luckyCurve pk [])) := by
  have hne : NeZero luckyPrime := ⟨by decide⟩
  refine ⟨luckyPrime_prime, ?_, ?_, leBytes 32 2, leBytes 32 7 ++ List.replicate 48 0, ?_,
    luckyCurve.sha512 ([4, 3] ++ luckyCurve.compress (8 • ((7 : Nat) : ZMod luckyPrime))), ?_, ?_⟩
  · intro n hn
    simp only [luckyCurve] at hn
    rw [zsmul_eq_mul, mul_one] at hn
    exact (ZMod.intCast_zmod_eq_zero_iff_dvd n luckyPrime).1 hn
  · intro p
    simp only [luckyCurve]
    rw [nsmul_eq_mul, Nat.cast_mul, ZMod.natCast_self, mul_zero, zero_mul]
  · simp only [luckyCurve]
    rw [leVal_leBytes _ _ (by decide)]
    simp
  · rw [C24_accepts_iff luckyCurve luckyCurve_good _ _ _ _ _ rfl]
    refine ⟨(7 : Nat), 0, 0, ?_, ?_, ?_, ?_, ?_, rfl⟩
    · simp only [luckyCurve]
      rw [List.take_append_of_le_length (by rw [leBytes_length]), List.take_of_length_le (by rw [leBytes_length]),
        leVal_leBytes _ _ (by decide)]
    · decide
    · decide
    · simp only [luckyCurve]; decide
    · simp only [vrfChallenge, luckyCurve]
      rw [if_neg (by simp)]
      decide
  · have e1 : (8 • ((7 : Nat) : ZMod luckyPrime)).val = 56 := by
      rw [nsmul_eq_mul, ← Nat.cast_mul, ZMod.val_natCast]; decide +kernel
    have e2 : (8 • 2 • (3 : ZMod luckyPrime)).val = 48 := by
      rw [nsmul_eq_mul, nsmul_eq_mul, show (3 : ZMod luckyPrime) = ((3 : Nat) : ZMod luckyPrime) by norm_num,
        ← Nat.cast_mul, ← Nat.cast_mul, ZMod.val_natCast]; decide +kernel
    simp only [vrfPoint, luckyCurve]
    rw [e1, e2]
    decide

/-- A case of `C24_prove_verifies`, `C24_output_of_accepted`, `C24_verify_total` and `C24_prove_spec`. -/
example (seed msg : Bytes) : (proveBytes toyCurve (fromSeed toyCurve seed) msg).length = 80 ∧
    (∃ out, verifyBytes toyCurve (fromSeed toyCurve seed).pub (proveBytes toyCurve (fromSeed toyCurve seed) msg) msg = .ok out ∧
      toOutput toyCurve (proveBytes toyCurve (fromSeed toyCurve seed) msg) = .ok out) ∧
    verifyBytes toyCurve [1] [2, 3] msg ≠ .panic := by
  obtain ⟨h1, h2, h3⟩ := C24_prove_verifies toyCurve toyCurve_good seed msg
  rw [h3] at h2
  exact ⟨h1, ⟨_, h2, C24_output_of_accepted _ _ _ _ _ h2⟩, (C24_verify_total toyCurve [1] [2, 3] msg (by simp [toyCurve])).1⟩

/-- A case of `C24_same_gamma_same_output`: proofs that begin alike. -/
example (pk pk' p p' msg msg' out out' : Bytes) (h : verifyBytes toyCurve pk p msg = .ok out)
    (h' : verifyBytes toyCurve pk' p' msg' = .ok out') (he : p.take 32 = p'.take 32) : out = out' :=
  C24_same_gamma_same_output toyCurve pk pk' p p' msg msg' out out' h h' _ _ rfl rfl (by rw [he])

/-- Its hypotheses are met: the proof that is made, twice. -/
example (seed msg : Bytes) : ∃ p out, verifyBytes toyCurve (fromSeed toyCurve seed).pub p msg = .ok out ∧
    ∃ g, toyCurve.decompress (p.take 32) = some g := by
  obtain ⟨_, h1, h2⟩ := C24_prove_verifies toyCurve toyCurve_good seed msg
  exact ⟨_, _, h1.trans h2, _, rfl⟩

end Verif.Props
