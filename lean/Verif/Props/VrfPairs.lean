import Verif.Props.KeyPairs
import Verif.Props.Ed25519
/-!
# C171: stored selection keys
-/

namespace Verif.Props
open Verif Verif.Vrf Verif.Curve Verif.Edwards Verif.Sha512 Verif.Account Verif.Msgpack Verif.Codec Verif.Multisig

attribute [local irreducible] Curve.compress Curve.decompress Curve.elligator Sha512.sha512 sqrt?

section
variable {G : Type} [AddCommGroup G]

/-- What is hashed for the challenge of a proof. -/
def challengeBytes (C : Curve G) (h gamma u v : G) : Bytes :=
  [4, 2] ++ C.compress h ++ C.compress gamma ++ C.compress u ++ C.compress v

/-- Exactly when the proof made by a key pair with any two halves is accepted. -/
theorem pair_proof_iff (C : Curve G) (hC : GoodCurve C) (kp : Keypair) (y : G) (hy : C.decompress kp.pub = some y) (msg : Bytes)
    (h : G) (hh : h = vrfPoint C kp.pub msg) (k : Nat) (hk : k = genNonce C kp.priv (C.compress h)) (x : Nat)
    (hx : x = secretScalar C kp.priv) (c : Nat) (hc : c = vrfChallenge C h (x • h) (k • C.base) (k • h)) :
    (∃ out, verifyBytes C kp.pub (proveBytes C kp msg) msg = .ok out) ↔
      vrfChallenge C h (x • h) (k • C.base + c • (x • C.base - y)) (k • h) = c := by
  have hpos : 0 < C.l := Nat.lt_of_lt_of_le (by decide) hC.l_low
  have hH : C.l • h = 0 := by rw [hh]; exact hC.elligator_order _
  have hp : proveBytes C kp msg = C.compress (x • h) ++ (leBytes 32 c).take 16 ++ leBytes 32 ((k + c * x) % C.l) := by
    rw [proveBytes]
    have : hashToCurve C kp.pub msg = h := hh.symm
    simp only [this, ← hx, ← hk, hashPoints_spec C hC, ← hc]
  have hclt : c < 256 ^ 16 := by rw [hc, ← hashPoints_spec C hC]; exact hashPoints_lt C hC _
  have hdec := decode_prove C hC (x • h) c ((k + c * x) % C.l) hclt (Nat.mod_lt _ hpos)
  have e1 : ((k + c * x) % C.l) • C.base - c • y = k • C.base + c • (x • C.base - y) := by
    rw [mod_smul _ _ _ hC.base_order, add_smul, mul_smul, smul_sub]; abel
  have e2 : ((k + c * x) % C.l) • h - c • x • h = k • h := by
    rw [mod_smul _ _ _ hH, add_smul, mul_smul, add_sub_cancel_right]
  rw [hp, verifyBytes, hdec]
  have : hashToCurve C kp.pub msg = h := hh.symm
  simp only [hy, this, hashPoints_spec C hC, e1, e2]
  constructor
  · rintro ⟨out, ho⟩
    by_contra hne
    rw [if_neg hne] at ho
    cases ho
  · intro he
    rw [if_pos he, toOutput, hdec]
    exact ⟨_, rfl⟩
end

/-- **C171** is false for selection keys: if the secret half of the stored pair is overwritten by any 32 bytes, the participation is
restored without an error and registers the same key as before; but the proofs that it makes are refused, unless the bytes give the
same key, a challenge is zero, or two different strings have hashes that begin with the same 16 bytes. -/
theorem C171_vrf_violated {S : Scheme} {K : Keys S} (hK : GoodKeys K) (s : Store) (p : Participation S) (hp : PartOk K p)
    (h : Holds K s p) (seed other : Bytes) (hseed : p.vrf = fromSeed ed25519 seed) (ho : other.length = 32) :
    ∃ q : Participation S, restore K (s.insert .vrf (enc (vrfMP ⟨other, p.vrf.pub⟩))) = .ok q ∧
      (∀ fee first last lease, registrationTx q fee first last lease = registrationTx p fee first last lease) ∧
      ∀ msg out, verifyBytes ed25519 p.vrf.pub (proveBytes ed25519 q.vrf msg) msg = .ok out →
        p.vrf.pub = (fromSeed ed25519 other).pub ∨
        ∃ H U : Pt, ∃ x k c : Nat, H = vrfPoint ed25519 p.vrf.pub msg ∧ x = secretScalar ed25519 other ∧
          k = leVal (sha512 ((sha512 other).drop 32 ++ Curve.compress H)) % baseOrder ∧
          c = vrfChallenge ed25519 H (x • H) (k • basePoint) (k • H) ∧ U = k • basePoint + c • (x • basePoint - secretScalar ed25519 seed • basePoint) ∧
          (c = 0 ∨
            (challengeBytes ed25519 H (x • H) (k • basePoint) (k • H) ≠ challengeBytes ed25519 H (x • H) U (k • H) ∧
              (sha512 (challengeBytes ed25519 H (x • H) (k • basePoint) (k • H))).take 16 =
                (sha512 (challengeBytes ed25519 H (x • H) U (k • H))).take 16)) := by
  have hpub : p.vrf.pub = Curve.compress (secretScalar ed25519 seed • basePoint) := by rw [hseed]; rfl
  have hlen : p.vrf.pub.length = 32 := hp.vrfPub
  have hq : PartOk K { p with vrf := ⟨other, p.vrf.pub⟩ } :=
    { hp with vrfPriv := ho, vrfPub := hlen }
  refine ⟨{ p with vrf := ⟨other, p.vrf.pub⟩ }, restore_holds hK hq ?_, fun _ _ _ _ => rfl, ?_⟩
  · simp only [Holds, persist, List.mem_cons, List.not_mem_nil, or_false, forall_eq_or_imp, forall_eq] at h ⊢
    simpa [Store.insert] using And.intro h.1 h.2.2
  · intro msg out hv
    have hd : decompress p.vrf.pub = some (secretScalar ed25519 seed • basePoint) := by rw [hpub]; exact decompress_compress _
    have hacc := (pair_proof_iff ed25519 ed25519_good ⟨other, p.vrf.pub⟩ _ hd msg _ rfl _ rfl _ rfl _ rfl).1 ⟨out, hv⟩
    by_cases hsame : secretScalar ed25519 other • basePoint = secretScalar ed25519 seed • basePoint
    · left
      rw [hpub, ← hsame]
      rfl
    · right
      refine ⟨_, _, _, _, _, rfl, rfl, rfl, rfl, rfl, ?_⟩
      revert hacc
      show vrfChallenge ed25519 (vrfPoint ed25519 p.vrf.pub msg) _ (_ • basePoint + _ • (_ • basePoint - _)) _ = _ → _
      generalize vrfPoint ed25519 p.vrf.pub msg = H
      have hg : genNonce ed25519 other (ed25519.compress H) =
        leVal (sha512 ((sha512 other).drop 32 ++ Curve.compress H)) % baseOrder := rfl
      rw [hg]
      generalize leVal (sha512 ((sha512 other).drop 32 ++ Curve.compress H)) % baseOrder = k
      have hb : ed25519.base = basePoint := rfl
      rw [hb]
      generalize secretScalar ed25519 other = x at hsame ⊢
      generalize secretScalar ed25519 seed = x' at hsame ⊢
      generalize hc : vrfChallenge ed25519 H (x • H) (k • basePoint) (k • H) = c
      intro hacc
      by_cases h0 : c = 0
      · exact .inl h0
      · refine .inr ⟨fun e => ?_, ?_⟩
        · have e1 : ed25519.compress (k • basePoint) = ed25519.compress (k • basePoint + c • (x • basePoint - x' • basePoint)) := by
            unfold challengeBytes at e
            have e2 := List.append_cancel_right e
            exact List.append_cancel_left e2
          have e3 := compress_injective e1
          have e4 : c • (x • basePoint - x' • basePoint) = 0 := by
            have := e3.symm
            rwa [add_eq_left] at this
          have e5 : ((c : ℤ) * ((x : ℤ) - x')) • basePoint = 0 := by
            rw [mul_smul, sub_smul, natCast_zsmul, natCast_zsmul, natCast_zsmul]; exact e4
          have hdvd := multiple_zero _ e5
          have hprime : Prime (baseOrder : ℤ) := Nat.prime_iff_prime_int.1 prime_l
          rcases hprime.dvd_or_dvd hdvd with h1 | h1
          · have hlt : c < 2 ^ 128 := by
              rw [← hc, ← hashPoints_spec ed25519 ed25519_good]
              exact hashPoints_lt ed25519 ed25519_good _
            have h2 : baseOrder ∣ c := by exact_mod_cast h1
            have := Nat.le_of_dvd (Nat.pos_of_ne_zero h0) h2
            have := baseOrder_low
            omega
          · apply hsame
            obtain ⟨t, ht⟩ := h1
            have h3 : ((x : ℤ) - x') • basePoint = 0 := by
              rw [ht, mul_comm, mul_smul, natCast_zsmul, base_order, smul_zero]
            rw [sub_smul, natCast_zsmul, natCast_zsmul] at h3
            exact sub_eq_zero.1 h3
        · have l1 : ∀ b, ((sha512 b).take 16).length = 16 := fun b => by rw [List.length_take, Sha512.sha512_length]; rfl
          exact leVal_injective ((l1 _).trans (l1 _).symm) (hc.trans hacc.symm)

-- a stored participation with such a key
example : ∃ p : Participation byteScheme, PartOk byteKeys p ∧ p.vrf = fromSeed ed25519 (List.replicate 32 7) ∧
    Holds byteKeys (Store.inserts (fun _ => none) (persist byteKeys p)) p :=
  ⟨{ toyPart 1 with vrf := fromSeed ed25519 (List.replicate 32 7) },
    { toyPart_ok 1 with vrfPriv := List.length_replicate, vrfPub := compress_length _ }, rfl,
    by simp [Holds, persist, Store.inserts, Store.insert]⟩

end Verif.Props
