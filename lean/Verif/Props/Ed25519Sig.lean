import Verif.Model.Ed25519
import Verif.Props.Ed25519
import Verif.Props.Multisig
import Verif.Props.Ots
import Verif.Props.Account
import Verif.Props.Transaction
/-!
# Ed25519 signatures (C167, C168), and the claims that assume a signature scheme on Ed25519
-/

namespace Verif.Props
open Verif Verif.Vrf Verif.Curve Verif.Edwards Verif.Sig Verif.Sha512

attribute [local irreducible] Curve.compress Curve.decompress Sha512.sha512 sqrt?

/-! ## C167: what is signed is accepted -/

/-- Specification (RFC 8032, 5.1.7, without the cofactor): a signature is `R` and `s`; `s` is below the group order and
`s·B = R + k·A`, where `k` is the hash of `R`, the key and the message. -/
def Signs (pk msg sig : Bytes) : Prop :=
  ∃ (A R : Pt) (rest : Bytes), StandsFor pk A ∧ sig = Curve.compress R ++ rest ∧ rest.length = 32 ∧ leVal rest < baseOrder ∧
    leVal rest • basePoint = R + (leVal (sha512 (Curve.compress R ++ pk ++ msg)) % baseOrder) • A

/-- Specification: the number that a signature starts with (RFC 8032, 5.1.6, step 2). -/
def sigNonce (seed msg : Bytes) : Nat := leVal (sha512 ((sha512 seed).drop 32 ++ msg)) % baseOrder

/-- **C167**: exactly which signatures are accepted. -/
theorem C167_accepts_iff (pk msg sig : Bytes) : Sig.verify pk msg sig = true ↔ Signs pk msg sig := by
  constructor
  · intro h
    unfold Sig.verify at h
    cases hd : decompress pk with
    | none => rw [hd] at h; cases h
    | some A =>
      rw [hd] at h
      obtain ⟨hl, hs, hc⟩ := of_decide_eq_true h
      refine ⟨A, leVal (sig.drop 32) • basePoint - hashScalar (sig.take 32 ++ pk ++ msg) • A, sig.drop 32,
        (decompress_iff _ _).1 hd, ?_, ?_, hs, ?_⟩
      · rw [hc, List.take_append_drop]
      · rw [List.length_drop, hl]
      · rw [hc]
        exact (sub_add_cancel _ _).symm
  · rintro ⟨A, R, rest, hA, rfl, hl, hs, he⟩
    have hR := compress_length R
    have h1 : (Curve.compress R ++ rest).take 32 = Curve.compress R := by
      rw [List.take_append_of_le_length (by omega), List.take_of_length_le (by omega)]
    have h2 : (Curve.compress R ++ rest).drop 32 = rest := by
      rw [List.drop_append_of_le_length (by omega), List.drop_eq_nil_of_le (by omega), List.nil_append]
    unfold Sig.verify
    rw [(decompress_iff _ _).2 hA]
    refine decide_eq_true ⟨by rw [List.length_append]; omega, ?_, ?_⟩
    · rw [h2]; exact hs
    · rw [h1, h2, hashScalar, he, add_sub_cancel_right]

theorem response_lt (n : Nat) : n % baseOrder < baseOrder := Nat.mod_lt _ (by norm_num)

theorem leVal_response (n : Nat) : leVal (leBytes 32 (n % baseOrder)) = n % baseOrder :=
  leVal_leBytes _ _ (Nat.lt_trans (response_lt n) (by norm_num))

theorem sign_eq (seed msg : Bytes) :
    Sig.sign seed msg = Curve.compress (sigNonce seed msg • basePoint) ++
      leBytes 32 ((leVal (sha512 (Curve.compress (sigNonce seed msg • basePoint) ++ publicKey seed ++ msg)) % baseOrder *
        scalarOf seed + sigNonce seed msg) % baseOrder) := rfl

/-- **C167**: for all secret keys and messages the signature has 64 bytes and is accepted under the public key. -/
theorem C167_sign_verifies (seed msg : Bytes) :
    (Sig.sign seed msg).length = 64 ∧ Sig.verify (publicKey seed) msg (Sig.sign seed msg) = true := by
  constructor
  · rw [sign_eq, List.length_append, compress_length, leBytes_length]
  · rw [C167_accepts_iff, sign_eq]
    refine ⟨scalarOf seed • basePoint, sigNonce seed msg • basePoint, _, ?_, rfl, leBytes_length _ _, ?_, ?_⟩
    · exact (decompress_iff _ _).1 (decompress_compress _)
    · rw [leVal_response]; exact response_lt _
    · rw [leVal_response, mod_smul _ _ _ base_order, add_smul, mul_smul, add_comm]

/-- **C167**: of two accepted signatures for the same key and message that begin with the same 32 bytes, none differs from the
other: a signature cannot be altered in its second half. -/
theorem C167_one_response (pk msg sig sig' : Bytes) (h : Sig.verify pk msg sig = true) (h' : Sig.verify pk msg sig' = true)
    (hR : sig.take 32 = sig'.take 32) : sig = sig' := by
  obtain ⟨A, R, rest, hA, rfl, hl, hs, he⟩ := (C167_accepts_iff _ _ _).1 h
  obtain ⟨A', R', rest', hA', rfl, hl', hs', he'⟩ := (C167_accepts_iff _ _ _).1 h'
  have c1 := compress_length R
  have c2 := compress_length R'
  rw [List.take_append_of_le_length (by omega), List.take_of_length_le (by omega),
    List.take_append_of_le_length (by omega), List.take_of_length_le (by omega)] at hR
  have eR := compress_injective hR
  subst eR
  have eA : A = A' := Option.some.inj (((decompress_iff _ _).2 hA).symm.trans ((decompress_iff _ _).2 hA'))
  subst eA
  have e : (leVal rest : ℤ) • basePoint = (leVal rest' : ℤ) • basePoint := by
    rw [natCast_zsmul, natCast_zsmul, he, he']
  have hd := multiple_zero ((leVal rest : ℤ) - leVal rest') (by rw [sub_smul, e, sub_self])
  have := Int.eq_zero_of_abs_lt_dvd hd (by rw [abs_lt]; omega)
  rw [leVal_injective (hl.trans hl'.symm) (by omega)]

/-! ### The strict verification of one-time signatures -/

theorem scalarOf_secret (seed : Bytes) : scalarOf seed = secretScalar ed25519 seed := rfl

theorem scalar_not_multiple (seed : Bytes) : ¬ baseOrder ∣ scalarOf seed := by
  have h := C24_secret_scalar ed25519 sha512_length seed
  rw [scalarOf_secret, h]
  generalize leVal ((ed25519.sha512 seed).take 32) = v
  rintro ⟨k, hk⟩
  have h1 : v % 2 ^ 254 < 2 ^ 254 := Nat.mod_lt _ (by norm_num)
  have h8 : 8 ∣ baseOrder * k := by
    rw [← hk]
    exact Dvd.dvd.add (by norm_num) (Nat.dvd_mul_left _ _)
  have hk8 : 8 ∣ k := (Nat.Coprime.dvd_mul_left (by norm_num)).1 h8
  obtain ⟨j, rfl⟩ := hk8
  generalize hw : v % 2 ^ 254 / 8 = w at hk
  have hw2 : w < 2 ^ 251 := by rw [← hw]; exact Nat.div_lt_of_lt_mul (by norm_num; exact h1)
  have hb : baseOrder = 2 ^ 252 + 27742317777372353535851937790883648493 := by norm_num
  rcases j with _ | j
  · norm_num at hk
  · have : baseOrder * 8 ≤ baseOrder * (8 * (j + 1)) := Nat.mul_le_mul_left _ (by omega)
    have h3 : baseOrder * 8 ≤ 2 ^ 254 + w * 8 := by omega
    norm_num at h3 hw2
    omega

theorem smallOrder_iff (n : Nat) : 8 • n • basePoint = 0 ↔ baseOrder ∣ n := by
  constructor
  · intro h
    have := eight_multiple_zero (n : ℤ) (by rw [natCast_zsmul, smul_comm]; exact h)
    exact Int.natCast_dvd_natCast.1 this
  · rintro ⟨k, rfl⟩
    rw [mul_comm, mul_smul, base_order, smul_zero, smul_zero]

-- the keys that `C165_other_outputs_partial` is about: every key made from a seed
example (seed : Bytes) : StandsFor (fromSeed ed25519 seed).pub (scalarOf seed • basePoint) ∧ 8 • scalarOf seed • basePoint ≠ 0 :=
  ⟨(decompress_iff _ _).1 (decompress_compress _), fun h => scalar_not_multiple seed ((smallOrder_iff _).1 h)⟩

/-- **C167**, one-time signatures: the strict verification accepts what was signed exactly if the nonce is not zero. -/
theorem C167_strict_iff (seed msg : Bytes) :
    Sig.verifyStrict (publicKey seed) msg (Sig.sign seed msg) = true ↔ sigNonce seed msg ≠ 0 := by
  obtain ⟨hl, hv⟩ := C167_sign_verifies seed msg
  have hpk : decompress (publicKey seed) = some (scalarOf seed • basePoint) := decompress_compress _
  have ht : (Sig.sign seed msg).take 32 = Curve.compress (sigNonce seed msg • basePoint) := by
    rw [sign_eq, List.take_append_of_le_length (by rw [compress_length]), List.take_of_length_le (by rw [compress_length])]
  unfold Sig.verify at hv
  rw [hpk] at hv
  obtain ⟨h1, h2, h3⟩ := of_decide_eq_true hv
  have h4 : leVal ((Sig.sign seed msg).drop 32) • basePoint -
      hashScalar ((Sig.sign seed msg).take 32 ++ publicKey seed ++ msg) • scalarOf seed • basePoint =
      sigNonce seed msg • basePoint := by
    apply compress_injective
    rw [h3, ht]
  have hA : smallOrder (scalarOf seed • basePoint) = false := by
    rw [smallOrder]
    exact decide_eq_false fun h => scalar_not_multiple seed ((smallOrder_iff _).1 h)
  have hR : smallOrder (sigNonce seed msg • basePoint) = decide (sigNonce seed msg = 0) := by
    rw [smallOrder]
    refine decide_eq_decide.2 ?_
    rw [smallOrder_iff]
    constructor
    · intro h
      exact Nat.eq_zero_of_dvd_of_lt h (response_lt _)
    · intro h; rw [h]; exact Nat.dvd_zero _
  unfold Sig.verifyStrict
  rw [hpk]
  have hd : decompress ((Sig.sign seed msg).take 32) = some (sigNonce seed msg • basePoint) := by
    rw [ht]; exact decompress_compress _
  rw [hd]
  simp only [hA, hR, h4, decide_eq_true (show (Sig.sign seed msg).length = 64 ∧ leVal ((Sig.sign seed msg).drop 32) < baseOrder from ⟨h1, h2⟩)]
  simp

/-! ## C168: keys that belong to nobody -/

/-- A signature that needs no secret key: the neutral element and the number zero. -/
def freeSig : Bytes := blankKey ++ List.replicate 32 0

theorem free_signs (pk msg : Bytes) (A : Pt) (hA : StandsFor pk A)
    (hk : (leVal (sha512 (blankKey ++ pk ++ msg)) % baseOrder) • A = 0) : Sig.verify pk msg freeSig = true := by
  rw [C167_accepts_iff]
  have hz : leVal (List.replicate 32 0) = 0 := by decide
  have hb : Curve.compress 0 = blankKey := compress_zero
  refine ⟨A, 0, List.replicate 32 0, hA, ?_, rfl, ?_, ?_⟩
  · rw [hb]; rfl
  · rw [hz]; norm_num
  · rw [hz, hb, hk, zero_smul, add_zero]

/-- **C168** is false: under the blank key (`PublicKey::default()`), which belongs to no secret key, one and the same signature is
accepted for every message, by itself and in a batch. -/
theorem C168_blank_key_violated (msg : Bytes) :
    (∀ seed, publicKey seed ≠ blankKey) ∧ Sig.verify blankKey msg freeSig = true ∧
    ((Multisig.BatchVerifier.new.enqueSig blankKey msg freeSig).verify Sig.scheme = .ok ()) := by
  have h : Sig.verify blankKey msg freeSig = true := free_signs _ _ _ blankKey_zero (smul_zero _)
  refine ⟨?_, h, ?_⟩
  · intro seed he
    have h1 := compress_injective (he.trans compress_zero.symm)
    exact scalar_not_multiple seed ((smallOrder_iff _).1 (by rw [h1, smul_zero]))
  · exact ((C20_batch_is_conjunction Sig.scheme [(blankKey, msg, freeSig)]).1).2
      ⟨by simp, by intro t ht; rw [List.mem_singleton.1 ht]; exact h⟩

/-- **C168** is false for multisignatures: if the blank key is among the keys of an account that needs one signature, everybody can
sign every message for the account. -/
theorem C168_multisig_violated (H : Bytes → Bytes) (others : List Bytes) (ho : others.length < 255) (msg : Bytes) :
    ∃ addr, Multisig.fromPks H 1 1 (blankKey :: others) = .ok addr ∧
      Multisig.Msig.verify H Sig.scheme ⟨1, 1, ⟨blankKey, some freeSig⟩ :: others.map fun k => ⟨k, none⟩⟩ msg addr = .ok true := by
  have hkeys : (⟨blankKey, some freeSig⟩ :: others.map fun k => (⟨k, none⟩ : Multisig.Subsig)).map Multisig.Subsig.key =
      blankKey :: others := by
    rw [List.map_cons, List.map_map]
    exact congrArg _ (List.map_id _)
  refine ⟨H (specAddrString 1 1 (blankKey :: others)), (C19_address_total H 1 1 _).1 ⟨rfl, Nat.le_refl 1, ?_⟩, ?_⟩
  · rw [List.length_cons]; exact Nat.le_add_left 1 _
  · rw [C16_accept_iff]
    refine ⟨⟨rfl, Nat.le_refl 1, ?_, ?_, ?_, ?_⟩, ?_⟩
    · rw [List.filter_cons_of_pos rfl, List.length_cons]; exact Nat.le_add_left 1 _
    · simp only [List.length_cons, List.length_map]; omega
    · simp only [hkeys]
    · simp
    · intro s hs sg hsg
      rcases List.mem_cons.1 hs with e | e
      · subst e
        rw [← Option.some.inj hsg]
        exact (C168_blank_key_violated msg).2.1
      · obtain ⟨k, _, rfl⟩ := List.mem_map.1 e
        cases hsg

/-- The point of order four that 32 zero bytes stand for. -/
def zeroPoint : Pt := ptOf iNat 0 (by decide +kernel)

theorem zeroPoint_stands : StandsFor (List.replicate 32 0) zeroPoint := by
  have e : leVal (List.replicate 32 0) = 0 := by decide
  have hx : zeroPoint.x = ((iNat : Nat) : Fp) := rfl
  have hy : zeroPoint.y = ((0 : Nat) : Fp) := rfl
  rw [StandsFor, e, hx, hy, ZMod.val_natCast]
  exact ⟨by rw [Nat.zero_mod], Or.inr (by decide +kernel)⟩

theorem zeroPoint_order : 4 • zeroPoint = 0 := (mul_ptOf_zero _ _ _ _ (by norm_num)).2 (by decide +kernel)

/-! ### The default VRF key -/

/-- Any answer to a challenge that is a multiple of four is accepted under the default VRF key. -/
theorem zero_accepted (msg : Bytes) (k : Nat) (hk : k < baseOrder)
    (h4 : 4 ∣ vrfChallenge ed25519 (vrfPoint ed25519 (List.replicate 32 0) msg) 0 (k • basePoint)
      (k • vrfPoint ed25519 (List.replicate 32 0) msg)) :
    verifyBytes ed25519 (List.replicate 32 0)
      (blankKey ++ leBytes 16 (vrfChallenge ed25519 (vrfPoint ed25519 (List.replicate 32 0) msg) 0 (k • basePoint)
        (k • vrfPoint ed25519 (List.replicate 32 0) msg)) ++ leBytes 32 k) msg =
      .ok (sha512 ([4, 3] ++ blankKey)) := by
  generalize hH : vrfPoint ed25519 (List.replicate 32 0) msg = H at h4 ⊢
  have hc := challenge_lt H 0 (k • basePoint) (k • H)
  generalize hcc : vrfChallenge ed25519 H 0 (k • basePoint) (k • H) = c at h4 hc ⊢
  obtain ⟨p1, p2, p3⟩ := parts_of_proof blankKey (leBytes 16 c) (leBytes 32 k) rfl (leBytes_length _ _) (leBytes_length _ _)
  refine (C24_accepts_iff ed25519 ed25519_good _ _ _ _ zeroPoint ((decompress_iff _ _).2 zeroPoint_stands)).2
    ⟨0, c, k, ?_, ?_, ?_, hk, ?_, ?_⟩
  · rw [p1]; exact (decompress_iff _ _).2 blankKey_zero
  · rw [p2, leVal_leBytes _ _ hc]
  · rw [p3, leVal_leBytes _ _ (Nat.lt_trans hk (by norm_num))]
  · have hz : c • zeroPoint = 0 := by
      obtain ⟨j, rfl⟩ := h4
      rw [mul_comm, mul_smul, zeroPoint_order, smul_zero]
    rw [hH, hz, smul_zero, sub_zero, sub_zero]
    exact hcc
  · rw [smul_zero, blankKey, ← compress_zero]; rfl

/-- **C165** is false for the default VRF key as well (32 zero bytes, which accounts without a key have): whoever finds a number `k`
whose challenge is a multiple of four, one in four numbers, has a proof, and the output is the same for all messages. -/
theorem C165_default_key_violated (msg : Bytes) (k : Nat) (hk : k < baseOrder)
    (h4 : 4 ∣ vrfChallenge ed25519 (vrfPoint ed25519 (List.replicate 32 0) msg) 0 (k • basePoint)
      (k • vrfPoint ed25519 (List.replicate 32 0) msg)) :
    ∃ proof : Bytes, proof.length = 80 ∧
      verifyBytes ed25519 (List.replicate 32 0) proof msg = .ok (sha512 ([4, 3] ++ blankKey)) := by
  refine ⟨_, ?_, zero_accepted msg k hk h4⟩
  rw [List.length_append, List.length_append, leBytes_length, leBytes_length]
  rfl

-- two messages for which zero is such a number
example : ∀ m ∈ [[(6 : UInt8)], [8]], 4 ∣ vrfChallenge ed25519 (vrfPoint ed25519 (List.replicate 32 0) m) 0 ((0 : Nat) • basePoint)
    ((0 : Nat) • vrfPoint ed25519 (List.replicate 32 0) m) := by decide +kernel

/-- **C168** is false for the zero address: its 32 zero bytes are a point of order four, so the same signature is accepted for every
message whose hash (with the blank key and the zero address) is a multiple of four, one in four. -/
theorem C168_zero_address_violated (msg : Bytes)
    (h : 4 ∣ leVal (sha512 (blankKey ++ List.replicate 32 0 ++ msg)) % baseOrder) :
    (∀ seed, publicKey seed ≠ List.replicate 32 0) ∧ Sig.verify (List.replicate 32 0) msg freeSig = true := by
  constructor
  · intro seed he
    have h1 := decompress_compress (scalarOf seed • basePoint)
    have h2 : Curve.compress (scalarOf seed • basePoint) = List.replicate 32 0 := he
    rw [h2, (decompress_iff _ _).2 zeroPoint_stands] at h1
    have h3 := Option.some.inj h1
    apply scalar_not_multiple seed
    rw [← smallOrder_iff, ← h3, show (8 : Nat) = 2 * 4 by rfl, mul_smul, zeroPoint_order, smul_zero]
  · refine free_signs _ _ _ zeroPoint_stands ?_
    obtain ⟨k, hk⟩ := h
    rw [hk, mul_comm, mul_smul, zeroPoint_order, smul_zero]

-- such a message
example : 4 ∣ leVal (sha512 (blankKey ++ List.replicate 32 0 ++ [4])) % baseOrder := by decide +kernel

/-- **C168**, what holds: the strict verification accepts nothing under a key of small order, in particular under the blank key and
the zero address. -/
theorem C168_strict_partial (pk msg sig : Bytes) (h : Sig.verifyStrict pk msg sig = true) :
    (∃ A : Pt, StandsFor pk A ∧ 8 • A ≠ 0) ∧ pk ≠ blankKey ∧ pk ≠ List.replicate 32 0 := by
  have key : ∃ A : Pt, StandsFor pk A ∧ 8 • A ≠ 0 := by
    unfold Sig.verifyStrict at h
    cases hd : decompress pk with
    | none => rw [hd] at h; cases h
    | some A =>
      rw [hd] at h
      cases hr : decompress (sig.take 32) with
      | none => rw [hr] at h; cases h
      | some R =>
        rw [hr] at h
        simp only [Bool.and_eq_true, Bool.not_eq_true'] at h
        exact ⟨A, (decompress_iff _ _).1 hd, of_decide_eq_false h.1.2⟩
  have unique : ∀ P : Pt, StandsFor pk P → 8 • P ≠ 0 := by
    obtain ⟨A, hA, h8⟩ := key
    intro P hP
    have := Option.some.inj (((decompress_iff _ _).2 hP).symm.trans ((decompress_iff _ _).2 hA))
    rw [this]; exact h8
  refine ⟨key, ?_, ?_⟩
  · rintro rfl
    exact unique 0 blankKey_zero (smul_zero _)
  · rintro rfl
    exact unique _ zeroPoint_stands (by rw [show (8 : Nat) = 2 * 4 by rfl, mul_smul, zeroPoint_order, smul_zero])

/-- **C168**, what holds: in an accepted one-time signature none of the three keys is the blank key or of small order. -/
theorem C168_one_time_partial (E : Ots.Enc) (o : Ots.OTS) (id : Ots.Ident) (msg pk : Bytes)
    (h : o.verify Sig.strictScheme E id msg pk = true) :
    ∀ k ∈ [pk, o.pk2, o.pk], k ≠ blankKey ∧ ∃ A : Pt, StandsFor k A ∧ 8 • A ≠ 0 := by
  rw [Ots.OTS.verify, Bool.and_eq_true, Bool.and_eq_true] at h
  have g : ∀ k m s, Sig.verifyStrict k m s = true → k ≠ blankKey ∧ ∃ A : Pt, StandsFor k A ∧ 8 • A ≠ 0 := by
    intro k m s hk
    obtain ⟨h1, h2, _⟩ := C168_strict_partial k m s hk
    exact ⟨h2, h1⟩
  intro k hk
  simp only [List.mem_cons, List.not_mem_nil, or_false] at hk
  rcases hk with rfl | rfl | rfl
  · exact g _ _ _ h.1.1
  · exact g _ _ _ h.1.2
  · exact g _ _ _ h.2

/-! ## The claims about one-time signatures, participation keys and transactions, on Ed25519 -/

/-- Specification: a signature made with the nonce zero, which the strict verification refuses. Finding a message for which
this happens means inverting SHA-512. -/
def ZeroNonceSig (pk msg sig : Bytes) : Prop := ∃ seed, pk = publicKey seed ∧ sig = Sig.sign seed msg ∧ sigNonce seed msg = 0

open Classical in
/-- Ed25519 with the strict verification, accepting also signatures with the nonce zero. -/
noncomputable def lenient : Multisig.Scheme :=
  ⟨Seed, fun k => publicKey k.1, fun k => Sig.sign k.1, fun pk m s => Sig.verifyStrict pk m s || decide (ZeroNonceSig pk m s)⟩

theorem lenient_iff (pk m s : Bytes) : lenient.verify pk m s = true ↔ Sig.verifyStrict pk m s = true ∨ ZeroNonceSig pk m s := by
  simp [lenient]

theorem lenient_correct (sk : lenient.Sk) (m : Bytes) : lenient.verify (lenient.pub sk) m (lenient.sign sk m) = true := by
  rw [lenient_iff]
  by_cases h : sigNonce sk.1 m = 0
  · exact Or.inr ⟨sk.1, rfl, rfl, h⟩
  · exact Or.inl ((C167_strict_iff sk.1 m).2 h)

/-- **C21** on Ed25519, without assumptions about signatures: what is signed for an identifier in range that is not deleted is
accepted by the strict verification, unless one of its three signatures was made with the nonce zero. -/
theorem C21_ed25519 (E : Ots.Enc) (master : lenient.Sk) (eph : Nat → lenient.Sk) (start num : Nat) (hr : start + num < u64Lim)
    (n : Nat) (ds : List (Del lenient)) (st : Ots.Secrets lenient)
    (hrun : (Ots.generate lenient E master eph start num >>= fun st => runDels E n st ds) = .ok st)
    (id : Ots.Ident) (hin : start ≤ id.batch ∧ id.batch < start + num) (ho : id.offset < n)
    (hdel : ∀ d ∈ ds, IdLe d.cur id) (msgRep : Bytes) (fresh : lenient.Sk) :
    ∃ o, Ots.sign E st id msgRep fresh = .ok o ∧
      (o.verify Sig.strictScheme E id msgRep (lenient.pub master) = true ∨
        ZeroNonceSig (lenient.pub master) (Ots.batchRep E o.pk2 id.batch) o.pk2Sig ∨
        ZeroNonceSig o.pk2 (Ots.offsetRep E o.pk id.batch id.offset) o.pk1Sig ∨ ZeroNonceSig o.pk msgRep o.sig) := by
  obtain ⟨o, h1, h2⟩ := C21_sign_verifies lenient_correct E master eph start num hr n ds st hrun id hin ho hdel msgRep fresh
  refine ⟨o, h1, ?_⟩
  rw [Ots.OTS.verify, Bool.and_eq_true, Bool.and_eq_true, lenient_iff, lenient_iff, lenient_iff] at h2
  obtain ⟨⟨a, b⟩, c⟩ := h2
  rcases a with a | a
  · rcases b with b | b
    · rcases c with c | c
      · left
        rw [Ots.OTS.verify, Bool.and_eq_true, Bool.and_eq_true]
        exact ⟨⟨a, b⟩, c⟩
      · exact Or.inr (Or.inr (Or.inr c))
    · exact Or.inr (Or.inr (Or.inl b))
  · exact Or.inr (Or.inl a)

/-- The keys of Ed25519 as they are stored. -/
noncomputable def lenientKeys (binAsSeq : Bool) : Account.Keys lenient := ⟨Sig.lib binAsSeq, keypairBytes, keypairOf⟩

theorem publicKey_len (seed : Bytes) : (publicKey seed).length = 32 := compress_length _

theorem keypairOf_len (b : Bytes) (sk : Seed) (h : keypairOf b = some sk) : b.length = 64 := by
  rw [keypairOf] at h
  by_contra hl
  rw [dif_neg hl] at h
  cases h

theorem keypair_back (sk : Seed) : keypairOf (keypairBytes sk) = some sk := by
  have h1 : (keypairBytes sk).take 32 = sk.1 := by
    rw [keypairBytes, List.take_append_of_le_length (by rw [sk.2]), List.take_of_length_le (by rw [sk.2])]
  have h2 : (keypairBytes sk).drop 32 = publicKey sk.1 := by
    rw [keypairBytes, List.drop_append_of_le_length (by rw [sk.2]), List.drop_eq_nil_of_le (by rw [sk.2]), List.nil_append]
  have h3 : (keypairBytes sk).length = 64 := by rw [keypairBytes, List.length_append, sk.2, publicKey_len]
  rw [keypairOf, dif_pos h3, if_pos (by rw [h1, h2])]
  exact congrArg some (Subtype.ext h1)

theorem valid_of_stands {b : Bytes} {P : Pt} (s : Bool) (hl : b.length = 32) (h : StandsFor b P) : (Sig.lib s).validPk b = true := by
  simp only [Sig.lib, Bool.and_eq_true, decide_eq_true_eq]
  exact ⟨hl, by rw [(decompress_iff _ _).2 h]; rfl⟩

theorem high_bits (c : Bytes) (n : Nat) (hc : c.length = 32) : leVal ((c ++ leBytes 32 (n % baseOrder)).drop 32) < 2 ^ 253 := by
  rw [List.drop_append_of_le_length (by omega), List.drop_eq_nil_of_le (by omega), List.nil_append, leVal_response]
  exact (response_lt n).trans (by norm_num)

theorem valid_of_high {b : Bytes} (s : Bool) (hl : b.length = 64) (h : leVal (b.drop 32) < 2 ^ 253) :
    (Sig.lib s).validSig b = true := decide_eq_true ⟨hl, h⟩

theorem zero_high : leVal ((List.replicate 64 0).drop 32) < 2 ^ 253 := by decide +kernel

theorem valid_public (s : Bool) (seed : Bytes) : (Sig.lib s).validPk (publicKey seed) = true :=
  valid_of_stands s (publicKey_len seed) ((decompress_iff _ _).1 (decompress_compress _))

theorem valid_signature (s : Bool) (seed m : Bytes) : (Sig.lib s).validSig (Sig.sign seed m) = true := by
  refine valid_of_high s (C167_sign_verifies seed m).1 ?_
  rw [sign_eq]
  exact high_bits _ _ (compress_length _)

/-- All that the claims about stored keys assume about the signature library holds for Ed25519. -/
theorem lenientKeys_good (s : Bool) : GoodKeys (lenientKeys s) where
  correct := lenient_correct
  pub_len _ := publicKey_len _
  pub_ok _ := valid_public s _
  default_ok := valid_of_stands s rfl blankKey_zero
  sign_len _ m := (C167_sign_verifies _ m).1
  sign_ok _ m := valid_signature s _ m
  zero_ok := valid_of_high s rfl zero_high
  sk_len := keypairOf_len
  sk_back := keypair_back

/-- The empty one-time signature is never accepted: its keys are blank. -/
theorem lenient_empty (E : Ots.Enc) : EmptyInvalid lenient E := by
  intro id msg pk
  rw [Bool.eq_false_iff]
  intro h
  rw [Ots.OTS.verify, Bool.and_eq_true] at h
  rcases (lenient_iff _ _ _).1 h.2 with h | ⟨seed, h, _⟩
  · exact (C168_strict_partial _ _ _ h).2.1 rfl
  · exact (C168_blank_key_violated []).1 seed h.symm

/-- **C21-C23** on Ed25519: after any history the identifiers with a verifiable signature are exactly those in range and not below
a deletion. -/
theorem C21_exact_ed25519 (E : Ots.Enc) (master : lenient.Sk) (eph : Nat → lenient.Sk) (start num : Nat)
    (hr : start + num < u64Lim) (n : Nat) (ds : List (Del lenient)) (st : Ots.Secrets lenient)
    (hrun : (Ots.generate lenient E master eph start num >>= fun st => runDels E n st ds) = .ok st)
    (id : Ots.Ident) (hb : id.batch + 1 < u64Lim) (ho : id.offset < n) (hn : n < u64Lim) (msgRep : Bytes) (fresh : lenient.Sk) :
    ((∃ o, Ots.sign E st id msgRep fresh = .ok o ∧ o.verify lenient E id msgRep (lenient.pub master) = true) ↔
      (start ≤ id.batch ∧ id.batch < start + num) ∧ ∀ d ∈ ds, IdLe d.cur id) :=
  C21_exact lenient_correct E master eph start num hr n ds st hrun (fun id msg => lenient_empty E id msg _) id hb ho hn msgRep fresh

/-- **C27** on Ed25519 and its VRF: generated keys sign for every round of the interval. -/
theorem C27_ed25519 (s : Bool) (E : Ots.Enc) (master : lenient.Sk) (eph : Nat → lenient.Sk) (seed parent : Bytes)
    (first last d : Nat) (h : first ≤ last) (hd : 0 < d) (hl : last + 1 < u64Lim) :
    ∃ p, Account.fillDb E (lenientKeys s) ed25519 master eph seed parent first last d = .ok (p, Account.persist (lenientKeys s) p) ∧
      p.parent = parent ∧ p.firstValid = first ∧ p.lastValid = last ∧ p.keyDilution = d ∧
      ∀ r, first ≤ r → r ≤ last → CanSign E p r :=
  C27_covers_interval (lenientKeys_good s) E ed25519 master eph seed parent first last d h hd hl

/-- **C47** on Ed25519: the signature of every transaction verifies under its authorizer; no key pair has the zero address. -/
theorem C47_ed25519 (enc : Tx.Transaction → Bytes) (tx : Tx.Transaction) (sk : Seed) :
    (Tx.sign Sig.scheme enc tx sk).authorizer = publicKey sk.1 ∧
    Sig.verify (Tx.sign Sig.scheme enc tx sk).authorizer (HashId.hashRep ⟨.transaction, enc tx⟩)
      (Tx.sign Sig.scheme enc tx sk).sig = true := by
  have hz : ∀ seed, publicKey seed ≠ List.replicate 32 0 := (C168_zero_address_violated [4] (by decide +kernel)).1
  obtain ⟨h1, h2, _⟩ := C47_authorizer_verifies Sig.scheme enc tx sk (fun m => (C167_sign_verifies _ m).2) (hz sk.1)
  exact ⟨h1, h2⟩

/-- **C17** on Ed25519: a member's own signature for an account that needs one verifies. -/
theorem C17_ed25519 (H : Bytes → Bytes) (msg : Bytes) (v t : UInt8) (pks : List Bytes) (addr : Bytes)
    (haddr : Multisig.fromPks H v t pks = .ok addr) (hsize : pks.length ≤ 255) (sk : Seed)
    (hfirst : pks[0]? ≠ some blankKey) (hmem : publicKey sk.1 ∈ pks)
    (henough : t.toNat ≤ (pks.filter fun pk => decide (publicKey sk.1 = pk)).length) :
    ∃ m, Multisig.sign H Sig.scheme addr msg v t pks sk (publicKey sk.1) = .ok m ∧
      m.verify H Sig.scheme msg addr = .ok true :=
  C17_single_verifies H Sig.scheme (fun sk m => (C167_sign_verifies sk.1 m).2) msg v t pks addr haddr hsize sk
    (fun h => absurd h hfirst) hmem henough

/-- A case of `C168_multisig_violated`: the blank key and two others, threshold 1. -/
example (H : Bytes → Bytes) (a b msg : Bytes) : ∃ addr, Multisig.fromPks H 1 1 [blankKey, a, b] = .ok addr ∧
    Multisig.Msig.verify H Sig.scheme ⟨1, 1, [⟨blankKey, some freeSig⟩, ⟨a, none⟩, ⟨b, none⟩]⟩ msg addr = .ok true :=
  C168_multisig_violated H [a, b] (show 2 < 255 by decide) msg

/-- A case of `C168_strict_partial`: what the key of a seed signs passes strict verification, unless the nonce is zero. -/
example (seed msg : Bytes) (h : Sig.verifyStrict (publicKey seed) msg (Sig.sign seed msg) = true) : publicKey seed ≠ blankKey :=
  (C168_strict_partial _ _ _ h).2.1

/-- Keys for batches 3 to 7 of which those before batch 5, offset 2 are deleted. -/
theorem lenientRun (E : Ots.Enc) (k : lenient.Sk) : ∃ st,
    (Ots.generate lenient E k (fun _ => k) 3 5 >>= fun st => runDels E 10 st [⟨⟨5, 2⟩, fun _ => k⟩]) = .ok st :=
  ⟨_, rfl⟩

/-- A case of `C21_ed25519` and `C21_exact_ed25519`: what is left can sign batch 6, and cannot sign batch 4. -/
example (E : Ots.Enc) (k : lenient.Sk) (msg : Bytes) : ∃ st : Ots.Secrets lenient,
    (∃ o, Ots.sign E st ⟨6, 1⟩ msg k = .ok o ∧ o.verify lenient E ⟨6, 1⟩ msg (lenient.pub k) = true) ∧
    ¬ ∃ o, Ots.sign E st ⟨4, 1⟩ msg k = .ok o ∧ o.verify lenient E ⟨4, 1⟩ msg (lenient.pub k) = true := by
  obtain ⟨st, h⟩ := lenientRun E k
  refine ⟨st, (C21_exact_ed25519 E k _ 3 5 (by decide) 10 _ st h ⟨6, 1⟩ (by decide) (by decide) (by decide) msg k).2
    ⟨by decide, ?_⟩, fun h2 => ?_⟩
  · intro d hd
    simp only [List.mem_singleton] at hd
    subst hd
    simp [IdLe]
  · have := ((C21_exact_ed25519 E k _ 3 5 (by decide) 10 _ st h ⟨4, 1⟩ (by decide) (by decide) (by decide) msg k).1 h2).2
      _ (List.mem_singleton.2 rfl)
    simp [IdLe] at this

/-- A case of `C27_ed25519`: keys for rounds 7 to 1500. -/
example (s : Bool) (E : Ots.Enc) (k : lenient.Sk) (seed parent : Bytes) : ∃ p : Account.Participation lenient,
    p.firstValid = 7 ∧ CanSign E p 1500 := by
  obtain ⟨p, _, _, h, _, _, h2⟩ := C27_ed25519 s E k (fun _ => k) seed parent 7 1500 38 (by decide) (by decide) (by decide)
  exact ⟨p, h, h2 _ (by decide) (by decide)⟩

/-- A case of `C17_ed25519`: the second of two keys signs for both, where one is enough. -/
example (H : Bytes → Bytes) (sk : Seed) (msg other : Bytes) (ho : other ≠ blankKey) (addr : Bytes)
    (ha : Multisig.fromPks H 1 1 [other, publicKey sk.1] = .ok addr) :
    ∃ m, Multisig.sign H Sig.scheme addr msg 1 1 [other, publicKey sk.1] sk (publicKey sk.1) = .ok m ∧
      m.verify H Sig.scheme msg addr = .ok true :=
  C17_ed25519 H msg 1 1 _ addr ha (by simp) sk (by simpa using ho) (by simp)
    (List.length_pos_of_mem (List.mem_filter.2 ⟨List.mem_cons_of_mem _ (List.mem_singleton.2 rfl), by simp⟩))

end Verif.Props
