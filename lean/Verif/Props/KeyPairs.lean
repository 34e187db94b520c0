import Verif.Props.Ed25519Sig
import Verif.Props.AccountManager
import Mathlib.Algebra.Field.ZMod
/-!
# C171: stored key pairs
-/

namespace Verif.Props
open Verif Verif.Vrf Verif.Curve Verif.Edwards Verif.Sig Verif.Sha512 Verif.Account Verif.Msgpack Verif.Codec

attribute [local irreducible] Curve.compress Curve.decompress Sha512.sha512 sqrt?

/-- Pairs that belong together sign as their secret key does. -/
theorem C171_intact (seed : Seed) (msg : Bytes) :
    ∃ k : Pair, k.1 = keypairBytes seed ∧ pairScheme.pub k = publicKey seed.1 ∧
      pairScheme.sign k msg = Sig.sign seed.1 msg := by
  have h1 : (seed.1 ++ publicKey seed.1).take 32 = seed.1 := by
    rw [List.take_append_of_le_length (by rw [seed.2]), List.take_of_length_le (by rw [seed.2])]
  have h2 : (seed.1 ++ publicKey seed.1).drop 32 = publicKey seed.1 := by
    rw [List.drop_append_of_le_length (by rw [seed.2]), List.drop_eq_nil_of_le (by rw [seed.2]), List.nil_append]
  have hp : decompress (publicKey seed.1) = some (scalarOf seed.1 • basePoint) := decompress_compress _
  refine ⟨⟨seed.1 ++ publicKey seed.1, ?_, ?_⟩, rfl, h2, ?_⟩
  · rw [List.length_append, seed.2, publicKey, compress_length]
  · rw [h2, hp]; rfl
  · show pairSign (seed.1 ++ publicKey seed.1) msg = _
    rw [pairSign, h1, h2]; rfl

/-- The challenge of a signature: a hash of public data. -/
def sigChallenge (pk msg sig : Bytes) : Nat := leVal (sha512 (sig.take 32 ++ pk ++ msg)) % baseOrder

/-- The response of a signature. -/
def sigResponse (sig : Bytes) : Nat := leVal (sig.drop 32)

theorem pair_parts (b msg : Bytes) :
    (pairSign b msg).take 32 = Curve.compress (sigNonce (b.take 32) msg • basePoint) ∧
    (pairSign b msg).length = 64 ∧
    sigResponse (pairSign b msg) =
      (sigChallenge (b.drop 32) msg (pairSign b msg) * scalarOf (b.take 32) + sigNonce (b.take 32) msg) % baseOrder := by
  have hl := compress_length (sigNonce (b.take 32) msg • basePoint)
  have e : pairSign b msg = Curve.compress (sigNonce (b.take 32) msg • basePoint) ++
      leBytes 32 ((leVal (sha512 (Curve.compress (sigNonce (b.take 32) msg • basePoint) ++ b.drop 32 ++ msg)) % baseOrder *
        scalarOf (b.take 32) + sigNonce (b.take 32) msg) % baseOrder) := rfl
  have ht : (pairSign b msg).take 32 = Curve.compress (sigNonce (b.take 32) msg • basePoint) := by
    rw [e, List.take_append_of_le_length (by omega), List.take_of_length_le (by omega)]
  refine ⟨ht, ?_, ?_⟩
  · rw [e, List.length_append, hl, leBytes_length]
  · rw [sigChallenge, ht, sigResponse, e, List.drop_append_of_le_length (by omega), List.drop_eq_nil_of_le (by omega),
      List.nil_append, leVal_response]

theorem response_smul (b msg : Bytes) :
    sigResponse (pairSign b msg) • basePoint =
      sigChallenge (b.drop 32) msg (pairSign b msg) • scalarOf (b.take 32) • basePoint + sigNonce (b.take 32) msg • basePoint := by
  rw [(pair_parts b msg).2.2, mod_smul _ _ _ base_order, add_smul, mul_smul]

/-- **C171**: exactly when a signature by a pair is accepted under the public half, if that is the key of some seed. -/
theorem C171_signs_iff (b msg seed : Bytes) (hb : b.drop 32 = publicKey seed) :
    Sig.verify (b.drop 32) msg (pairSign b msg) = true ↔
      publicKey (b.take 32) = publicKey seed ∨ sigChallenge (b.drop 32) msg (pairSign b msg) = 0 := by
  obtain ⟨ht, hl, _⟩ := pair_parts b msg
  have hpk : decompress (b.drop 32) = some (scalarOf seed • basePoint) := by rw [hb]; exact decompress_compress _
  have hlt : sigResponse (pairSign b msg) < baseOrder := by rw [(pair_parts b msg).2.2]; exact response_lt _
  have hs := response_smul b msg
  have hk : sigChallenge (b.drop 32) msg (pairSign b msg) < baseOrder := response_lt _
  have hh : hashScalar ((pairSign b msg).take 32 ++ b.drop 32 ++ msg) = sigChallenge (b.drop 32) msg (pairSign b msg) := rfl
  unfold Sig.verify
  rw [hpk]
  show decide ((pairSign b msg).length = 64 ∧ sigResponse (pairSign b msg) < baseOrder ∧
    Curve.compress (sigResponse (pairSign b msg) • basePoint -
      sigChallenge (b.drop 32) msg (pairSign b msg) • scalarOf seed • basePoint) =
      (pairSign b msg).take 32) = true ↔ _
  rw [decide_eq_true_iff, hs, ht]
  generalize sigChallenge (b.drop 32) msg (pairSign b msg) = k at *
  have hsame : publicKey (b.take 32) = publicKey seed ↔ scalarOf (b.take 32) • basePoint = scalarOf seed • basePoint :=
    ⟨fun h => compress_injective h, fun h => congrArg Curve.compress h⟩
  rw [hsame]
  generalize scalarOf (b.take 32) = a at *
  generalize scalarOf seed = a' at *
  generalize sigNonce (b.take 32) msg = r at *
  constructor
  · rintro ⟨_, _, he⟩
    have h1 := compress_injective he
    have h2 : k • a • basePoint = k • a' • basePoint := by
      have := congrArg (fun x => x + k • a' • basePoint - r • basePoint) h1
      simpa [add_sub_cancel_left, sub_add_cancel, add_sub_cancel_right] using this
    have h3 : ((k : ℤ) * ((a : ℤ) - a')) • basePoint = 0 := by
      rw [mul_sub, sub_smul, mul_smul, mul_smul]
      simp only [natCast_zsmul]
      rw [h2, sub_self]
    have h4 := multiple_zero _ h3
    have hp : Prime (baseOrder : ℤ) := Nat.prime_iff_prime_int.1 prime_l
    rcases hp.dvd_or_dvd h4 with h5 | h5
    · right
      exact Nat.eq_zero_of_dvd_of_lt (Int.natCast_dvd_natCast.1 h5) hk
    · left
      obtain ⟨j, hj⟩ := h5
      have h6 : ((a : ℤ) - a') • basePoint = 0 := by
        rw [hj, mul_comm, mul_smul, natCast_zsmul, base_order, smul_zero]
      rw [sub_smul, natCast_zsmul, natCast_zsmul] at h6
      exact sub_eq_zero.1 h6
  · rintro (h | h)
    · refine ⟨hl, hlt, ?_⟩
      rw [h, add_sub_cancel_left]
    · refine ⟨hl, hlt, ?_⟩
      rw [h, zero_smul, zero_smul, zero_add, sub_zero]

/-- **C171** is false: the record of a root key whose secret half was overwritten by any 32 bytes is restored without an error, with
the same address; and a message signed with it is refused unless the bytes give the same public key or its challenge is zero. -/
theorem C171_root_violated (x : Bool) (seed : Seed) (other : Bytes) (ho : other.length = 32) (s : Store)
    (hr : s .root = some (enc (.bin (other ++ publicKey seed.1)))) :
    ∃ k : Pair, restoreRoot (pairKeys x) s = .ok k ∧ pairScheme.pub k = publicKey seed.1 ∧ k.1.take 32 = other ∧
      ∀ msg, Sig.verify (publicKey seed.1) msg (pairScheme.sign k msg) = true ↔
        publicKey other = publicKey seed.1 ∨ sigChallenge (publicKey seed.1) msg (pairScheme.sign k msg) = 0 := by
  have h1 : (other ++ publicKey seed.1).take 32 = other := by
    rw [List.take_append_of_le_length (by rw [ho]), List.take_of_length_le (by rw [ho])]
  have h2 : (other ++ publicKey seed.1).drop 32 = publicKey seed.1 := by
    rw [List.drop_append_of_le_length (by rw [ho]), List.drop_eq_nil_of_le (by rw [ho]), List.nil_append]
  have hp : decompress (publicKey seed.1) = some (scalarOf seed.1 • basePoint) := decompress_compress _
  have h3 : (other ++ publicKey seed.1).length = 64 := by rw [List.length_append, ho, publicKey, compress_length]
  have h4 : (decompress ((other ++ publicKey seed.1).drop 32)).isSome = true := by rw [h2, hp]; rfl
  refine ⟨⟨other ++ publicKey seed.1, h3, h4⟩, ?_, h2, h1, ?_⟩
  · have hf : (MP.bin (other ++ publicKey seed.1)).Fits := fits_bin (by rw [h3]; decide)
    have hd := decode_enc _ [] hf
    rw [List.append_nil] at hd
    rw [restoreRoot, hr]
    have : pairOf (other ++ publicKey seed.1) = some ⟨other ++ publicKey seed.1, h3, h4⟩ := dif_pos ⟨h3, h4⟩
    simp only [hd, Option.bind_some, decKeypair, pairKeys, this, orDecodeError]
  · intro msg
    have := C171_signs_iff (other ++ publicKey seed.1) msg seed.1 h2
    rw [h1, h2] at this
    exact this

/-- **C171** is false for voting keys: a stored one-time key with any two halves is read without an error; and what is signed with
it is refused by the strict verification, too, unless the halves belong together or the challenge is zero. -/
theorem C171_subkey_violated (x : Bool) (seed : Seed) (other : Bytes) (ho : other.length = 32) (sig : Bytes)
    (hs : sig.length = 64 ∧ (lib x).validSig sig = true) :
    ∃ k : Pair, decSubkey (pairKeys x) (.arr [.bin (other ++ publicKey seed.1), bytesArr sig]) = some ⟨k, sig⟩ ∧
      pairScheme.pub k = publicKey seed.1 ∧
      ∀ msg, Sig.verifyStrict (publicKey seed.1) msg (pairScheme.sign k msg) = true →
        publicKey other = publicKey seed.1 ∨ sigChallenge (publicKey seed.1) msg (pairScheme.sign k msg) = 0 := by
  obtain ⟨k, hk, hp, ht, hv⟩ := C171_root_violated x seed other ho (fun _ => some (enc (.bin (other ++ publicKey seed.1)))) rfl
  have hb : k.1 = other ++ publicKey seed.1 := by
    have h3 : (other ++ publicKey seed.1).length = 64 := by rw [List.length_append, ho, publicKey, compress_length]
    have hd := decode_enc (MP.bin (other ++ publicKey seed.1)) [] (fits_bin (by rw [h3]; decide))
    rw [List.append_nil] at hd
    rw [restoreRoot] at hk
    simp only [hd, Option.bind_some, decKeypair, pairKeys] at hk
    rw [pairOf] at hk
    split at hk
    · exact congrArg Subtype.val (Res.ok.inj hk).symm
    · cases hk
  refine ⟨k, ?_, hp, fun msg h => (hv msg).1 ?_⟩
  · have : pairOf (other ++ publicKey seed.1) = some k := by
      rw [← hb]; exact dif_pos k.2
    simp only [decSubkey, decKeypair, pairKeys, this, decSig_bytesArr hs, Option.bind_eq_bind, Option.bind_some]
    rfl
  · have hR := (pair_parts k.1 msg).1
    have hd1 : decompress (publicKey seed.1) = some (scalarOf seed.1 • basePoint) := decompress_compress _
    have hd2 : decompress ((pairScheme.sign k msg).take 32) = some (sigNonce (k.1.take 32) msg • basePoint) := by
      rw [show pairScheme.sign k msg = pairSign k.1 msg from rfl, hR]; exact decompress_compress _
    unfold Sig.verifyStrict at h
    rw [hd1, hd2] at h
    simp only [Bool.and_eq_true, decide_eq_true_eq] at h
    obtain ⟨⟨⟨h1, _⟩, _⟩, h4⟩ := h
    unfold Sig.verify
    rw [hd1]
    refine decide_eq_true ⟨h1.1, h1.2, ?_⟩
    rw [h4]
    exact hR.symm

instance : Fact (Nat.Prime baseOrder) := ⟨prime_l⟩

/-- A number computed from two signatures of one message, and nothing else. -/
def leakedScalar (pk pk' msg sig sig' : Bytes) : Nat :=
  (((sigResponse sig : ZMod baseOrder) - sigResponse sig') /
    ((sigChallenge pk msg sig : ZMod baseOrder) - sigChallenge pk' msg sig')).val

/-- **C171** is false with a grave effect: if a message is signed with a pair and then with a pair that has the same secret half and
another public half, the two signatures give away a number that has the public key of the secret half: everybody can sign. -/
theorem C171_leak_violated (b b' msg : Bytes) (hsame : b.take 32 = b'.take 32)
    (hne : sigChallenge (b.drop 32) msg (pairSign b msg) ≠ sigChallenge (b'.drop 32) msg (pairSign b' msg)) :
    Curve.compress (leakedScalar (b.drop 32) (b'.drop 32) msg (pairSign b msg) (pairSign b' msg) • basePoint) =
      publicKey (b.take 32) := by
  have h1 := (pair_parts b msg).2.2
  have h2 := (pair_parts b' msg).2.2
  rw [← hsame] at h2
  rw [leakedScalar, h1, h2, publicKey]
  have k1 : sigChallenge (b.drop 32) msg (pairSign b msg) < baseOrder := response_lt _
  have k2 : sigChallenge (b'.drop 32) msg (pairSign b' msg) < baseOrder := response_lt _
  generalize sigChallenge (b.drop 32) msg (pairSign b msg) = k at *
  generalize sigChallenge (b'.drop 32) msg (pairSign b' msg) = k' at *
  generalize scalarOf (b.take 32) = a at *
  generalize sigNonce (b.take 32) msg = r at *
  have hk : (k : ZMod baseOrder) - k' ≠ 0 := by
    intro h
    have h3 := (ZMod.natCast_eq_natCast_iff' k k' baseOrder).1 (sub_eq_zero.1 h)
    rw [Nat.mod_eq_of_lt k1, Nat.mod_eq_of_lt k2] at h3
    exact hne h3
  have hv : ((((k * a + r) % baseOrder : Nat) : ZMod baseOrder) - (((k' * a + r) % baseOrder : Nat) : ZMod baseOrder)) /
      ((k : ZMod baseOrder) - k') = (a : ZMod baseOrder) := by
    rw [ZMod.natCast_mod, ZMod.natCast_mod, div_eq_iff hk]
    push_cast
    ring
  rw [hv, ZMod.val_natCast, mod_smul _ _ _ base_order]

-- two such pairs, with the blank key and the zero address as public halves
example : sigChallenge blankKey [1] (pairSign (List.replicate 32 0 ++ blankKey) [1]) ≠
    sigChallenge (List.replicate 32 0) [1] (pairSign (List.replicate 64 0) [1]) := by decide +kernel

/-- **C171**, what holds: what is restored is what the record says; a record is refused if it does not have 64 bytes or its second
half is no point. -/
theorem C171_record_partial (x : Bool) (s : Store) (b : Bytes) (hb : b.length < 2 ^ 32) (hr : s .root = some (enc (.bin b))) :
    (∀ k : Pair, restoreRoot (pairKeys x) s = .ok k ↔ k.1 = b) ∧
    (restoreRoot (pairKeys x) s = .err .decodeError ↔ ¬ (b.length = 64 ∧ ∃ P : Pt, StandsFor (b.drop 32) P)) := by
  have hf : (MP.bin b).Fits := fits_bin hb
  have hd := decode_enc _ [] hf
  rw [List.append_nil] at hd
  have hs : (decompress (b.drop 32)).isSome = true ↔ ∃ P : Pt, StandsFor (b.drop 32) P := by
    rw [Option.isSome_iff_exists]
    exact exists_congr fun P => decompress_iff _ _
  rw [← hs]
  have e : restoreRoot (pairKeys x) s = orDecodeError (pairOf b) := by
    rw [restoreRoot, hr]
    simp only [hd, Option.bind_some, decKeypair, pairKeys]
    rfl
  rw [e]
  by_cases h : b.length = 64 ∧ (decompress (b.drop 32)).isSome = true
  · have hp : pairOf b = some ⟨b, h⟩ := dif_pos h
    rw [hp]
    refine ⟨fun k => ⟨fun hk => ?_, fun hk => ?_⟩, fun hk => ?_, fun hk => absurd h hk⟩
    · rw [← Res.ok.inj hk]
    · exact congrArg Res.ok (Subtype.ext hk.symm)
    · cases hk
  · have hp : pairOf b = none := dif_neg h
    rw [hp]
    refine ⟨fun k => ⟨fun hk => ?_, fun hk => ?_⟩, fun _ => h, fun _ => rfl⟩
    · cases hk
    · exact absurd (hk ▸ k.2) h

/-! ## C167: nonces -/

/-- **C167**: signatures of different messages by one key start with different points (a number used twice would give the key away,
as in `C171_leak_violated`), unless SHA-512 gives the same number for the two strings that it is applied to. -/
theorem C167_fresh_nonce (seed msg msg' : Bytes) (h : (Sig.sign seed msg).take 32 = (Sig.sign seed msg').take 32) :
    msg = msg' ∨ ((sha512 seed).drop 32 ++ msg ≠ (sha512 seed).drop 32 ++ msg' ∧
      leVal (sha512 ((sha512 seed).drop 32 ++ msg)) % baseOrder = leVal (sha512 ((sha512 seed).drop 32 ++ msg')) % baseOrder) := by
  have ht : ∀ m, (Sig.sign seed m).take 32 = Curve.compress (sigNonce seed m • basePoint) := fun m => by
    rw [sign_eq, List.take_append_of_le_length (by rw [compress_length]), List.take_of_length_le (by rw [compress_length])]
  rw [ht, ht] at h
  have hp := compress_injective h
  have hm := (nsmul_eq_nsmul_iff_modEq (x := basePoint)).1 hp
  rw [order_base] at hm
  by_cases he : msg = msg'
  · exact .inl he
  · refine .inr ⟨fun e => he (List.append_cancel_left e), ?_⟩
    have h1 : sigNonce seed msg % baseOrder = sigNonce seed msg' % baseOrder := hm
    rw [sigNonce, sigNonce, Nat.mod_mod, Nat.mod_mod] at h1
    exact h1

-- the two messages `1` and `2` signed with the secret key of zeros
example : (Sig.sign (List.replicate 32 0) [1]).take 32 ≠ (Sig.sign (List.replicate 32 0) [2]).take 32 := fun h =>
  (C167_fresh_nonce _ _ _ h).elim (by decide) fun h => absurd h.2 (by decide +kernel)

/-- A case of `C171_signs_iff`: a pair made of a seed and its own key signs. -/
example (seed : Seed) (msg : Bytes) : Sig.verify (publicKey seed.1) msg (pairSign (seed.1 ++ publicKey seed.1) msg) = true := by
  have hd : (seed.1 ++ publicKey seed.1).drop 32 = publicKey seed.1 := by
    rw [List.drop_append_of_le_length (by rw [seed.2]), List.drop_of_length_le (by rw [seed.2]), List.nil_append]
  have ht : (seed.1 ++ publicKey seed.1).take 32 = seed.1 := by
    rw [List.take_append_of_le_length (by rw [seed.2]), List.take_of_length_le (by rw [seed.2])]
  have := (C171_signs_iff (seed.1 ++ publicKey seed.1) msg seed.1 hd).2 (.inl (by rw [ht]))
  rwa [hd] at this

/-- A case of `C171_root_violated` and `C171_record_partial`: the store has the seed of 32 zeros with the key of 32 ones. -/
example (x : Bool) : ∃ k : Pair, restoreRoot (pairKeys x)
      (fun n => if n = .root then some (enc (.bin (List.replicate 32 0 ++ publicKey (List.replicate 32 1)))) else none) = .ok k ∧
    k.1 = List.replicate 32 0 ++ publicKey (List.replicate 32 1) ∧ k.1.take 32 = List.replicate 32 0 := by
  obtain ⟨k, h1, _, h3, _⟩ := C171_root_violated x ⟨List.replicate 32 1, List.length_replicate⟩ (List.replicate 32 0)
    List.length_replicate (fun n => if n = .root then some (enc (.bin (List.replicate 32 0 ++ publicKey (List.replicate 32 1)))) else none)
    (if_pos rfl)
  exact ⟨k, h1, ((C171_record_partial x _ _ (by simp [publicKey_len]) (if_pos rfl)).1 k).1 h1, h3⟩

/-- A case of `C171_subkey_violated`: the same pair as a subkey with a signature by another key. -/
example (x : Bool) (other : Seed) (m : Bytes) : ∃ k : Pair, decSubkey (pairKeys x)
      (.arr [.bin (List.replicate 32 0 ++ publicKey (List.replicate 32 1)), bytesArr (Sig.sign other.1 m)]) =
        some ⟨k, Sig.sign other.1 m⟩ ∧ pairScheme.pub k = publicKey (List.replicate 32 1) := by
  obtain ⟨k, h1, h2, _⟩ := C171_subkey_violated x ⟨List.replicate 32 1, List.length_replicate⟩ (List.replicate 32 0)
    List.length_replicate _ ⟨(C167_sign_verifies other.1 m).1, valid_signature x other.1 m⟩
  exact ⟨k, h1, h2⟩

end Verif.Props
