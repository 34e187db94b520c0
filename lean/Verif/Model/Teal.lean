import Verif.Model.Consensus
/-!
# Model of `src/data/basics/teal.rs`

Maps from string keys are association lists of byte strings (the UTF-8 bytes of the key; `String::len` counts bytes).
-/

namespace Verif.Teal
open Verif Verif.Consensus

/-- `DeltaAction` (lines 14-24). -/
inductive DeltaAction where
  | setBytes
  | setUint
  | delete
  deriving Repr, DecidableEq

/-- `ValueDelta` (lines 27-32). -/
structure ValueDelta where
  action : DeltaAction
  bytes : Bytes
  uint : Nat
  deriving Repr, DecidableEq

/-- `TealType` (lines 165-172). -/
inductive TealType where
  | bytes
  | uint
  deriving Repr, DecidableEq

/-- `TealValue` (lines 185-190). -/
structure TealValue where
  tealType : TealType
  bytes : Bytes
  uint : Nat
  deriving Repr, DecidableEq

/-- `TealValue::new_bytes` (lines 193-199). -/
def TealValue.newBytes (b : Bytes) : TealValue := ⟨.bytes, b, 0⟩

/-- `TealValue::new_uint` (lines 201-207). -/
def TealValue.newUint (n : Nat) : TealValue := ⟨.uint, [], n⟩

/-- `ValueDelta::to_teal_value` (lines 36-42). -/
def ValueDelta.toTealValue (d : ValueDelta) : Option TealValue :=
  match d.action with
  | .setBytes => some (.newBytes d.bytes)
  | .setUint => some (.newUint d.uint)
  | .delete => none

/-- `TealValue::to_value_delta` (lines 210-223). -/
def TealValue.toValueDelta (v : TealValue) : ValueDelta :=
  match v.tealType with
  | .uint => ⟨.setUint, [], v.uint⟩
  | .bytes => ⟨.setBytes, v.bytes, 0⟩

/-- `StateDelta` (line 48). -/
abbrev StateDelta := List (Bytes × ValueDelta)

/-- The loop of `StateDelta::is_valid` (lines 84-103). -/
def isValidLoop (proto : Params) : StateDelta → Bool
  | [] => true
  | (key, delta) :: rest =>
    if key.length > proto.maxAppKeyLen then false
    else match delta.action with
      | .setBytes =>
        if delta.bytes.length > proto.maxAppBytesValueLen then false
        else if key.length + delta.bytes.length > proto.maxAppSumKeyValueLens then false
        else isValidLoop proto rest
      | .setUint => isValidLoop proto rest
      | .delete => isValidLoop proto rest

/-- `StateDelta::is_valid` (lines 79-105). -/
def isValid (sd : StateDelta) (proto : Params) : Bool :=
  if !sd.isEmpty && proto.maxAppKeyLen == 0 then false else isValidLoop proto sd

/-- `StateSchema` (lines 110-113). -/
structure Schema where
  numUint : Nat
  numByteSlice : Nat
  deriving Repr, DecidableEq

/-- `StateSchema::add_schema` (lines 117-122). -/
def Schema.add (a b : Schema) : Schema := ⟨satAdd64 a.numUint b.numUint, satAdd64 a.numByteSlice b.numByteSlice⟩

/-- `StateSchema::sub_schema` (lines 125-130). -/
def Schema.sub (a b : Schema) : Schema := ⟨a.numUint - b.numUint, a.numByteSlice - b.numByteSlice⟩

/-- `StateSchema::num_entries` (lines 133-137). -/
def Schema.numEntries (a : Schema) : Nat := satAdd64 (satAdd64 0 a.numUint) a.numByteSlice

/-- `StateSchema::min_balance` (lines 140-161). -/
def Schema.minBalance (a : Schema) (proto : Params) : Nat :=
  let flat := satMul64 proto.schemaMinBalancePerEntry a.numEntries
  let uint := satMul64 proto.schemaUintMinBalance a.numUint
  let bytes := satMul64 proto.schemaBytesMinBalance a.numByteSlice
  satAdd64 (satAdd64 (satAdd64 0 flat) uint) bytes

/-- `TealKeyValue` (line 238). -/
abbrev KeyValue := List (Bytes × TealValue)

/-- `TealKeyValue::to_state_schema` (lines 242-251); the counters are `u64`. -/
def toStateSchema (kv : KeyValue) : Res Unit Schema :=
  kv.foldlM (fun s e => match e.2.tealType with
    | .bytes => do let n ← addU64 s.numByteSlice 1; pure { s with numByteSlice := n }
    | .uint => do let n ← addU64 s.numUint 1; pure { s with numUint := n }) ⟨0, 0⟩

end Verif.Teal
