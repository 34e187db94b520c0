import Verif.Base.Res
/-!
# Model of `src/crypto/multisig.rs` and `src/crypto/batch_verifier.rs`

Ed25519 is a parameter: public keys, signatures and messages are byte strings, `verify` is the
library's `PublicKey::verify` (`is_ok()`), `sign` its `Keypair::sign`.
-/

namespace Verif.Multisig
open Verif

/-- The signature scheme (`ed25519_dalek`), a parameter of the model. -/
structure Scheme where
  Sk : Type
  pub : Sk → Bytes
  sign : Sk → Bytes → Bytes
  verify : Bytes → Bytes → Bytes → Bool

/-- `BatchVerifier` (batch_verifier.rs lines 10-16): three parallel vectors. For capacity see
`Verif/Model/Capacity.lean`. -/
structure BatchVerifier where
  messages : List Bytes
  publicKeys : List Bytes
  signatures : List Bytes
  deriving Repr, DecidableEq

/-- `BatchVerError` (batch_verifier.rs lines 18-22). -/
inductive BatchVerError where
  | verificationFailed
  | zeroTransactionsInBatch
  deriving Repr, DecidableEq

/-- `BatchVerifier::with_capacity` / `default` (lines 27-35, 68-74). -/
def BatchVerifier.new : BatchVerifier := ⟨[], [], []⟩

/-- `enque_sig` (lines 37-41). -/
def BatchVerifier.enqueSig (b : BatchVerifier) (pk msg sig : Bytes) : BatchVerifier :=
  ⟨b.messages ++ [msg], b.publicKeys ++ [pk], b.signatures ++ [sig]⟩

/-- `num_sigs_enqued` (lines 44-46). -/
def BatchVerifier.numSigsEnqued (b : BatchVerifier) : Nat := b.messages.length

/-- The loop of `verify` (lines 55-62) over the indices still to do; a missing index panics. -/
def BatchVerifier.verifyFrom (S : Scheme) (b : BatchVerifier) : List Nat → Res BatchVerError Unit
  | [] => .ok ()
  | i :: is => do
    let pk ← Res.ofOption b.publicKeys[i]?
    let m ← Res.ofOption b.messages[i]?
    let s ← Res.ofOption b.signatures[i]?
    if S.verify pk m s then b.verifyFrom S is else .err .verificationFailed

/-- `verify` (lines 50-65). -/
def BatchVerifier.verify (S : Scheme) (b : BatchVerifier) : Res BatchVerError Unit :=
  if b.numSigsEnqued = 0 then .err .zeroTransactionsInBatch
  else b.verifyFrom S (List.range b.messages.length)

/-- `MultisigError` (multisig.rs lines 34-56). -/
inductive MultisigError where
  | unknownVersion (v : UInt8)
  | invalidThreshold
  | invalidSignature
  | invalidAddress
  | invalidNumberOfSignatures
  | keyNotExists
  | thresholdsDontMatch (a b : UInt8)
  | versionsDontMatch (a b : UInt8)
  | keysDontMatch
  | invalidDuplicates
  deriving Repr, DecidableEq

/-- `MultisigSubsig` (lines 21-25). -/
structure Subsig where
  key : Bytes
  sig : Option Bytes
  deriving Repr, DecidableEq

/-- `MultisigSubsig::default()`: the default public key of the library is the compressed identity point
`1, 0, …, 0`. -/
def Subsig.default : Subsig := ⟨1 :: List.replicate 31 0, none⟩

/-- `MultisigSignature` (lines 27-32). -/
structure Msig where
  version : UInt8
  threshold : UInt8
  subsigs : List Subsig
  deriving Repr, DecidableEq

/-- `b"MultisigAddr"` (line 68). -/
def addrPrefix : Bytes := [77, 117, 108, 116, 105, 115, 105, 103, 65, 100, 100, 114]

/-- The buffer hashed by `from_pks` (lines 68-74). -/
def addrBuf (version threshold : UInt8) (pks : List Bytes) : Bytes :=
  addrPrefix ++ [version] ++ [threshold] ++ pks.flatten

/-- `MultisigAddr::from_pks` (lines 59-77). `H` is the SHA-512/256 digest. -/
def fromPks (H : Bytes → Bytes) (version threshold : UInt8) (pks : List Bytes) : Res MultisigError Bytes :=
  if version ≠ 1 then .err (.unknownVersion version)
  else if threshold = 0 ∨ pks.isEmpty ∨ threshold.toNat > pks.length then .err .invalidThreshold
  else .ok (H (addrBuf version threshold pks))

/-- `MultisigAddr::from_subsigs` (lines 81-88). -/
def fromSubsigs (H : Bytes → Bytes) (version threshold : UInt8) (subsigs : List Subsig) :
    Res MultisigError Bytes :=
  fromPks H version threshold (subsigs.map Subsig.key)

/-- `MultisigAddr::sign` (lines 91-131). `kpPub` is `kp.public`. -/
def sign (H : Bytes → Bytes) (S : Scheme) (addr msg : Bytes) (version threshold : UInt8) (pks : List Bytes)
    (sk : S.Sk) (kpPub : Bytes) : Res MultisigError Msig :=
  if version ≠ 1 then .err (.unknownVersion version)
  else do
    let a ← fromPks H version threshold pks
    if addr ≠ a then .err .invalidAddress
    else if !pks.contains kpPub then .err .keyNotExists
    else
      .ok ⟨version, threshold, pks.map fun pk => ⟨pk, if kpPub = pk then some (S.sign sk msg) else none⟩⟩

/-- The key comparison `for j in 0..n` of `assemble` (lines 156-160) and `matches` (lines 338-342). -/
def keysMatch (a b : List Subsig) : Nat → Nat → Res MultisigError Unit
  | _, 0 => .ok ()
  | j, n + 1 => do
    let x ← Res.ofOption a[j]?
    let y ← Res.ofOption b[j]?
    if x.key ≠ y.key then .err .keysDontMatch else keysMatch a b (j + 1) n

/-- The check loop of `assemble` (lines 142-161). -/
def assembleCheck (first : Msig) : List Msig → Res MultisigError Unit
  | [] => .ok ()
  | u :: us =>
    if first.threshold ≠ u.threshold then .err (.thresholdsDontMatch first.threshold u.threshold)
    else if first.version ≠ u.version then .err (.versionsDontMatch first.version u.version)
    else if first.subsigs.length ≠ u.subsigs.length then .err .invalidNumberOfSignatures
    else do
      keysMatch first.subsigs u.subsigs 0 first.subsigs.length
      assembleCheck first us

/-- The inner loop `for j in 0..n` of `assemble` (lines 180-184) for one partial signature. -/
def overlay (u : List Subsig) : Nat → List Subsig → Res MultisigError (List Subsig)
  | _, [] => .ok []
  | j, m :: ms => do
    let s ← Res.ofOption u[j]?
    let rest ← overlay u (j + 1) ms
    pure ((if s.sig.isSome then { m with sig := s.sig } else m) :: rest)

/-- The outer loop of `assemble` (lines 179-185). -/
def overlayAll : List Msig → List Subsig → Res MultisigError (List Subsig)
  | [], ms => .ok ms
  | u :: us, ms => do
    let ms ← overlay u.subsigs 0 ms
    overlayAll us ms

/-- `MultisigSignature::assemble` (lines 136-188). -/
def assemble (unisig : List Msig) : Res MultisigError Msig :=
  match unisig with
  | first :: second :: rest => do
    assembleCheck first (second :: rest)
    let subsigs ← overlayAll unisig (first.subsigs.map fun s => ⟨s.key, none⟩)
    pure ⟨first.version, first.threshold, subsigs⟩
  | _ => .err .invalidNumberOfSignatures

/-- The enqueue loop of `batch_verify` (lines 240-246); `verified` is a `u8`, its overflow panics. -/
def enqueAll (msg : Bytes) : List Subsig → BatchVerifier → Nat → Res MultisigError (BatchVerifier × Nat)
  | [], b, n => .ok (b, n)
  | s :: ss, b, n =>
    match s.sig with
    | some sg => if n + 1 < 256 then enqueAll msg ss (b.enqueSig s.key msg sg) (n + 1) else .panic
    | none => enqueAll msg ss b n

/-- `MultisigSignature::batch_verify` (lines 205-255); returns the verifier as well. -/
def Msig.batchVerify (H : Bytes → Bytes) (m : Msig) (msg addr : Bytes) (b : BatchVerifier) :
    Res MultisigError (Bool × BatchVerifier) :=
  if m.subsigs.isEmpty ∨ m.subsigs[0]? = some Subsig.default then .err .invalidNumberOfSignatures
  else do
    let a ← fromSubsigs H m.version m.threshold m.subsigs
    if addr ≠ a then .err .invalidAddress
    else if m.subsigs.length > 255 then .err .invalidNumberOfSignatures
    else if m.subsigs.length < m.threshold.toNat then .err .invalidNumberOfSignatures
    else if (m.subsigs.filter fun s => s.sig.isSome).length < m.threshold.toNat then
      .err .invalidNumberOfSignatures
    else do
      let (b, verified) ← enqueAll msg m.subsigs b 0
      if verified < m.threshold.toNat then .err .invalidNumberOfSignatures
      else pure (true, b)

/-- `MultisigSignature::verify` (lines 191-201). -/
def Msig.verify (H : Bytes → Bytes) (S : Scheme) (m : Msig) (msg addr : Bytes) : Res MultisigError Bool := do
  let (r, b) ← m.batchVerify H msg addr BatchVerifier.new
  if !r then pure false
  else if b.numSigsEnqued = 0 then pure true
  else
    match b.verify S with
    | .ok _ => pure true
    | .err _ => pure false
    | .panic => .panic

/-- `MultisigSignature::matches` (lines 323-345). -/
def Msig.matches (m other : Msig) (num : Nat) : Res MultisigError Unit :=
  if m.threshold ≠ other.threshold then .err (.thresholdsDontMatch m.threshold other.threshold)
  else if m.version ≠ other.version then .err (.versionsDontMatch m.version other.version)
  else if m.subsigs.length ≠ other.subsigs.length then .err .keysDontMatch
  else keysMatch m.subsigs other.subsigs 0 num

/-- The loop of `merge` (lines 296-317). -/
def mergeLoop (other : List Subsig) : Nat → List Subsig → Res MultisigError (List Subsig)
  | _, [] => .ok []
  | i, s :: ss => do
    let o ← Res.ofOption other[i]?
    let sg ←
      (if s.sig.isNone then
        (if o.sig.isSome then .ok o.sig else .ok none)
      else if o.sig.isNone ∨ o.sig = s.sig then .ok s.sig
      else .err .invalidDuplicates : Res MultisigError (Option Bytes))
    let rest ← mergeLoop other (i + 1) ss
    pure (⟨s.key, sg⟩ :: rest)

/-- `MultisigSignature::merge` (lines 287-320). -/
def Msig.merge (m other : Msig) : Res MultisigError Msig := do
  m.matches other m.subsigs.length
  let subsigs ← mergeLoop other.subsigs 0 m.subsigs
  pure ⟨m.version, m.threshold, subsigs⟩

/-- The inner loop of `add_sigs` (lines 270-280) for one partial signature: the subsignatures after the
loop (also when it fails, since the update is in place) and the result. -/
def addOne (u : List Subsig) : Nat → List Subsig → List Subsig × Res MultisigError Unit
  | _, [] => ([], .ok ())
  | i, s :: ss =>
    match u[i]? with
    | none => (s :: ss, .panic)
    | some o =>
      if o.sig.isSome then
        (if s.sig.isNone then
          let (rest, r) := addOne u (i + 1) ss
          ({ s with sig := o.sig } :: rest, r)
        else if s.sig ≠ o.sig then (s :: ss, .err .invalidDuplicates)
        else
          let (rest, r) := addOne u (i + 1) ss
          (s :: rest, r))
      else
        let (rest, r) := addOne u (i + 1) ss
        (s :: rest, r)

/-- The outer loop of `add_sigs` (lines 269-281). -/
def addAll : List Msig → List Subsig → List Subsig × Res MultisigError Unit
  | [], ss => (ss, .ok ())
  | u :: us, ss =>
    match addOne u.subsigs 0 ss with
    | (ss, .ok ()) => addAll us ss
    | (ss, r) => (ss, r)

/-- The check loop of `add_sigs` (lines 264-266). -/
def checkAll (m : Msig) (num : Nat) : List Msig → Res MultisigError Unit
  | [] => .ok ()
  | u :: us => do
    m.matches u num
    checkAll m num us

/-- `MultisigSignature::add_sigs` (lines 258-284): the new value of `self` and the result. -/
def Msig.addSigs (m : Msig) (unisigs : List Msig) : Msig × Res MultisigError Unit :=
  match unisigs with
  | [] => (m, .err .invalidNumberOfSignatures)
  | u :: us =>
    match checkAll m u.subsigs.length (u :: us) with
    | .ok () =>
      let (ss, r) := addAll (u :: us) m.subsigs
      ({ m with subsigs := ss }, r)
    | r => (m, r)

end Verif.Multisig
