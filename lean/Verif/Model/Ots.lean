import Verif.Model.Multisig
import Verif.Model.HashId
/-!
# Model of `src/crypto/ots.rs`

Ed25519 is the scheme parameter `S` (its `verify` stands for `verify_strict`). The message pack encoding
of the two subkey identifiers is a parameter (`Enc`); nothing is assumed about it. Random key
generation is explicit: each function that calls `Keypair::generate` takes the keys it draws as an
argument. Calls are sequential (the read-write lock is not modelled); the logging of out-of-range
requests is reduced to its overflow check.
-/

namespace Verif.Ots
open Verif Verif.HashId Verif.Multisig

/-- `protocol::encode` of `OTSSubkeyBatchID` and `OTSSubkeyOffsetID` (ots.rs lines 344-354), a parameter. -/
structure Enc where
  batch : Bytes → Nat → Bytes
  offset : Bytes → Nat → Nat → Bytes

/-- `OTSSubkeyBatchID::hash_rep` (lines 64-68, 344-348). -/
def batchRep (E : Enc) (pk : Bytes) (batch : Nat) : Bytes := hashRep ⟨.oneTimeSigKey1, E.batch pk batch⟩

/-- `OTSSubkeyOffsetID::hash_rep` (lines 72-77, 350-354). -/
def offsetRep (E : Enc) (pk : Bytes) (batch off : Nat) : Bytes := hashRep ⟨.oneTimeSigKey2, E.offset pk batch off⟩

/-- `OTSIdentifier` (lines 53-61). -/
structure Ident where
  batch : Nat
  offset : Nat
  deriving Repr, DecidableEq

/-- `OTS` (lines 30-49) without the unused old-style field. -/
structure OTS where
  sig : Bytes
  pk : Bytes
  pk2 : Bytes
  pk1Sig : Bytes
  pk2Sig : Bytes
  deriving Repr, DecidableEq

/-- `EphemeralSubkey` (lines 356-365): the key pair and the signature certifying it. -/
structure Subkey (S : Scheme) where
  sk : S.Sk
  pkSig : Bytes

/-- `OTSSecrets` (lines 88-110). -/
structure Secrets (S : Scheme) where
  verifier : Bytes
  firstBatch : Nat
  batches : List (Subkey S)
  firstOffset : Nat
  offsets : List (Subkey S)
  offsetsPk2 : Bytes
  offsetsPk2Sig : Bytes

/-- `PublicKey::default()`: the compressed identity point. -/
def defaultPk : Bytes := 1 :: List.replicate 31 0

/-- `Signature::new([0; 64])`. -/
def zeroSig : Bytes := List.replicate 64 0

/-- The signature returned for an out-of-range identifier (lines 211-218). -/
def emptyOTS : OTS := ⟨zeroSig, defaultPk, defaultPk, zeroSig, zeroSig⟩

/-- The loop of `generate` (lines 119-133): `n` keys starting with index `i`. -/
def genLoop (S : Scheme) (E : Enc) (master : S.Sk) (eph : Nat → S.Sk) (start : Nat) :
    Nat → Nat → Res Unit (List (Subkey S))
  | _, 0 => .ok []
  | i, n + 1 => do
    let batchnum ← addU64 start i
    let rest ← genLoop S E master eph start (i + 1) n
    pure (⟨eph i, S.sign master (batchRep E (S.pub (eph i)) batchnum)⟩ :: rest)

/-- `OTSSecrets::generate` (lines 115-146). -/
def generate (S : Scheme) (E : Enc) (master : S.Sk) (eph : Nat → S.Sk) (start num : Nat) : Res Unit (Secrets S) := do
  let subkeys ← genLoop S E master eph start 0 num
  pure ⟨S.pub master, start, subkeys, 0, [], defaultPk, zeroSig⟩

/-- `OTSSecrets::sign` (lines 149-219). `fresh` is the key drawn on line 174, `msgRep` the message's
`hash_rep()`. -/
def sign {S : Scheme} (E : Enc) (st : Secrets S) (id : Ident) (msgRep : Bytes) (fresh : S.Sk) : Res Unit OTS := do
  let b1 ← addU64 id.batch 1
  if b1 = st.firstBatch ∧ id.offset ≥ st.firstOffset ∧ id.offset - st.firstOffset < st.offsets.length then do
    let k ← Res.ofOption st.offsets[id.offset - st.firstOffset]?
    pure ⟨S.sign k.sk msgRep, S.pub k.sk, st.offsetsPk2, k.pkSig, st.offsetsPk2Sig⟩
  else if id.batch ≥ st.firstBatch ∧ id.batch - st.firstBatch < st.batches.length then do
    let k ← Res.ofOption st.batches[id.batch - st.firstBatch]?
    pure ⟨S.sign fresh msgRep, S.pub fresh, S.pub k.sk,
      S.sign k.sk (offsetRep E (S.pub fresh) id.batch id.offset), k.pkSig⟩
  else do
    -- line 204: `self.first_batch == id.batch + 1 && self.first_offset == id.offset + 1`
    if st.firstBatch = b1 then do
      let _ ← addU64 id.offset 1
      pure emptyOTS
    else pure emptyOTS

/-- The expansion loop of `delete_before` (lines 275-289) over the offsets from `off`. -/
def expand {S : Scheme} (E : Enc) (key : S.Sk) (batch : Nat) (fresh : Nat → S.Sk) : Nat → Nat → List (Subkey S)
  | _, 0 => []
  | off, n + 1 =>
    ⟨fresh off, S.sign key (offsetRep E (S.pub (fresh off)) batch off)⟩ :: expand E key batch fresh (off + 1) n

/-- `OTSSecrets::delete_before` (lines 223-294). `fresh` are the keys drawn on line 276. -/
def deleteBefore {S : Scheme} (E : Enc) (st : Secrets S) (cur : Ident) (numKeys : Nat) (fresh : Nat → S.Sk) :
    Res Unit (Secrets S) := do
  let b1 ← addU64 cur.batch 1
  if b1 = st.firstBatch then
    (if cur.offset > st.firstOffset then
      let jump := min (cur.offset - st.firstOffset) st.offsets.length
      pure { st with firstOffset := st.firstOffset + jump, offsets := st.offsets.drop jump }
    else pure st)
  else if b1 < st.firstBatch then pure st
  else
    let st := { st with offsets := [] }
    let jump := cur.batch - st.firstBatch
    if jump > st.batches.length then
      (if !st.batches.isEmpty then pure { st with firstBatch := cur.batch, batches := [] } else pure st)
    else
      let st := { st with firstBatch := st.firstBatch + jump, batches := st.batches.drop jump }
      match st.batches with
      | [] => pure st
      | k :: rest => do
        let fb ← addU64 st.firstBatch 1
        pure { st with
          offsetsPk2 := S.pub k.sk
          offsetsPk2Sig := k.pkSig
          firstOffset := cur.offset
          offsets := expand E k.sk cur.batch fresh cur.offset (numKeys - cur.offset)
          firstBatch := fb
          batches := rest }

/-- `OTSSecrets::snapshot` (lines 299-313). -/
def snapshot {S : Scheme} (st : Secrets S) : Secrets S :=
  ⟨st.verifier, st.firstBatch, st.batches, st.firstOffset, st.offsets, st.offsetsPk2, st.offsetsPk2Sig⟩

/-- `OTS::verify` (lines 319-341). -/
def OTS.verify (S : Scheme) (E : Enc) (o : OTS) (id : Ident) (msgRep pk : Bytes) : Bool :=
  S.verify pk (batchRep E o.pk2 id.batch) o.pk2Sig &&
  S.verify o.pk2 (offsetRep E o.pk id.batch id.offset) o.pk1Sig &&
  S.verify o.pk msgRep o.sig

end Verif.Ots
