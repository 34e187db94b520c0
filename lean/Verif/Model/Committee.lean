import Verif.Model.Vrf
import Verif.Model.Balance
import Verif.Model.Codec
/-!
# Model of `src/data/committee/{mod,sortition,credential}.rs`

Floating point numbers and the binomial distribution (crates `num` and `statrs`) are a parameter. A selector is given by
the object to be hashed and the committee size under the protocol. `BigInt` values are natural numbers.
-/

namespace Verif.Committee
open Verif Verif.Consensus Verif.HashId Verif.Balance Verif.Msgpack Verif.Codec Verif.Vrf

/-- The floating point operations used by the sortition. -/
structure Floats (F : Type) where
  /-- `u64 as f64` -/
  ofU64 : Nat → F
  div : F → F → F
  /-- `BigRational::new(t, 2^256 - 1).to_f64()` -/
  ratio : Nat → F
  /-- whether `Binomial::new(p, n)` succeeds -/
  valid : F → Nat → Bool
  /-- `Binomial::cdf` for probability `p` and `n` trials -/
  cdf : F → Nat → Nat → F
  /-- `>=` -/
  ge : F → F → Bool

/-- `sortition_binomial_cdf_walk` (sortition.rs lines 41-47). -/
def cdfWalk {F : Type} (Fl : Floats F) (n : Nat) (p r : F) : Res Unit Nat :=
  if Fl.valid p n then .ok (((List.range n).find? (fun i => Fl.ge (Fl.cdf p n i) r)).getD n)
  else .panic

/-- `select` (sortition.rs lines 20-39); the digest is read as a big endian number. -/
def select {F : Type} (Fl : Floats F) (money total : Nat) (expected : F) (out : Bytes) : Res Unit Nat :=
  cdfWalk Fl money (Fl.div expected (Fl.ofU64 total)) (Fl.ratio (ofBE out))

/-- `BalanceRecord` (mod.rs lines 24-27) with the account's selection key. -/
structure Record where
  account : Account
  selectionId : Bytes
  addr : Bytes

/-- `Membership` (mod.rs lines 30-34); the selector is what it hashes to and its committee size. -/
structure Membership where
  record : Record
  selector : ToBeHashed
  committeeSize : Params → Nat
  total : Nat

/-- `HashableCredential` (credential.rs lines 49-56). -/
structure Hashable where
  rawOut : Bytes
  member : Bytes
  iter : Nat
  deriving Repr, DecidableEq

/-- `Credential` (credential.rs lines 38-47). -/
structure Credential where
  weight : Nat
  vrfOut : Bytes
  domainSeparation : Bool
  hashable : Option Hashable
  proof : Bytes
  deriving Repr, DecidableEq

/-- `Error` (credential.rs lines 16-22). -/
inductive Error where
  | vrf (e : VrfError)
  | zeroWeight
  deriving Repr, DecidableEq

/-- `hash_obj` of a `HashableCredential` (credential.rs lines 228-232). -/
def hashCredential (hash : Bytes → Bytes) (h : Hashable) : Bytes :=
  hash (hashRep ⟨.credential, enc (credentialMP h.member h.iter)⟩)

/-- `VrfPublicKey::verify` (vrf.rs lines 130-136). -/
def vrfVerify {G : Type} [AddCommGroup G] (C : Curve G) (hash : Bytes → Bytes) (pk proof : Bytes) (o : ToBeHashed) :
    Res VrfError Bytes := verifyBytes C pk proof (hash (hashRep o))

/-- `VrfKeypair::prove` (vrf.rs lines 78-80), `UnauthenticatedCredential::new` (credential.rs lines 60-66). -/
def newCredential {G : Type} [AddCommGroup G] (C : Curve G) (hash : Bytes → Bytes) (kp : Keypair) (o : ToBeHashed) : Bytes :=
  proveBytes C kp (hash (hashRep o))

/-- The digest that decides the weight (credential.rs lines 90-96). -/
def selectionHash (hash : Bytes → Bytes) (proto : Params) (h : Hashable) : Bytes :=
  if proto.credentialDomainSeparationEnabled then hashCredential hash h else hash (h.rawOut ++ h.member)

/-- The weight (credential.rs lines 97-121). -/
def weigh {F : Type} (Fl : Floats F) (stake total size : Nat) (h : Bytes) : Res Unit Nat :=
  if total < stake then .panic
  else if total = 0 ∨ size = 0 ∨ size > total then .panic
  else if stake ≠ 0 then select Fl stake total (Fl.ofU64 size) h
  else .ok 0

/-- `UnauthenticatedCredential::verify` (credential.rs lines 75-139). -/
def verify {G F : Type} [AddCommGroup G] (C : Curve G) (Fl : Floats F) (hash : Bytes → Bytes) (proto : Params)
    (mem : Membership) (proof : Bytes) : Res Error Credential :=
  match vrfVerify C hash mem.record.selectionId proof mem.selector with
  | .panic => .panic
  | .err e => .err (.vrf e)
  | .ok out =>
    let hashable : Hashable := ⟨out, mem.record.addr, 0⟩
    let h := selectionHash hash proto hashable
    match weigh Fl (votingStake mem.record.account) mem.total (mem.committeeSize proto) h with
    | .ok weight =>
      if weight = 0 then .err .zeroWeight
      else .ok ⟨weight, h, proto.credentialDomainSeparationEnabled,
        if proto.credentialDomainSeparationEnabled then some hashable else none, proof⟩
    | _ => .panic

/-- The digest of unit `i` (credential.rs lines 174-182), and the credential afterwards. -/
def unitHash (hash : Bytes → Bytes) (c : Credential) (i : Nat) : Res Unit (Bytes × Credential) :=
  if c.domainSeparation then
    match c.hashable with
    | none => .panic
    | some h => .ok (hashCredential hash { h with iter := i }, { c with hashable := some { h with iter := i } })
  else .ok (hash (c.vrfOut ++ (beBytes 8 i ++ List.replicate 24 0)), c)

/-- The loop of `lowest_output` (credential.rs lines 173-192): `n` more rounds, starting at `i`. -/
def lowestLoop (hash : Bytes → Bytes) : Nat → Nat → Nat → Credential → Res Unit (Nat × Credential)
  | 0, _, lowest, c => .ok (lowest, c)
  | n + 1, i, lowest, c => do
    let (h, c) ← unitHash hash c i
    let lowest :=
      if i = 1 then ofBE h
      else if ofBE h < lowest then ofBE h else lowest
    lowestLoop hash n (i + 1) lowest c

/-- `Credential::lowest_output` (credential.rs lines 158-195): the value, and the credential afterwards. -/
def lowestOutput (hash : Bytes → Bytes) (c : Credential) : Res Unit (Nat × Credential) :=
  lowestLoop hash (c.weight - 1) 1 0 c

/-- `BigInt::to_bytes_be` for a positive number: no leading zeros. -/
def minBytes (n : Nat) : Bytes :=
  if n < 256 then [UInt8.ofNat n] else minBytes (n / 256) ++ [UInt8.ofNat n]
termination_by n

/-- `Credential::lowest_output_digest` (credential.rs lines 199-207). -/
def lowestOutputDigest (hash : Bytes → Bytes) (c : Credential) : Res Unit (Bytes × Credential) := do
  let (n, c) ← lowestOutput hash c
  if (minBytes n).length > 32 then .panic
  else .ok (List.replicate (32 - (minBytes n).length) 0 ++ minBytes n, c)

/-- `Credential::lt` (credential.rs lines 213-218). -/
def lt (hash : Bytes → Bytes) (a b : Credential) : Res Unit (Bool × Credential × Credential) := do
  let (x, a) ← lowestOutput hash a
  let (y, b) ← lowestOutput hash b
  .ok (decide (x < y), a, b)

/-- `PartialEq for Credential` (credential.rs lines 221-226). -/
def credEq (a b : Credential) : Bool := a.vrfOut == b.vrfOut

/-- `Credential::selected` (credential.rs lines 144-146). -/
def selected (c : Credential) : Bool := decide (c.weight > 0)

end Verif.Committee
