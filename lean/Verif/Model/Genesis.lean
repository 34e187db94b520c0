import Verif.Model.ApplyData
/-!
# Model of `Genesis` (`src/data/bookkeeping/genesis.rs`), `AccountData` (`src/data/basics/user_balance.rs`) and their
encodings

A `HashMap` is the list of its entries in the order in which the map yields them (see `Verif.Model.ApplyData`). Structs
are read from arrays or from maps with the names of the fields, variants from their names or positions; simplified: map
keys that are not texts are ignored, and variants written as maps are refused.
-/

namespace Verif.Genesis
open Verif Verif.Msgpack Verif.Codec Verif.HashId Verif.Teal Verif.Balance Verif.Consensus Verif.Tx

/-- `AssetHolding` (user_balance.rs lines 297-302). -/
structure Holding where
  amount : Nat
  frozen : Bool
  deriving Repr, DecidableEq

/-- `AppLocalState` (user_balance.rs lines 198-202). -/
structure LocalState where
  schema : Schema
  keyValue : KeyValue
  deriving Repr, DecidableEq

/-- `AppParams` (user_balance.rs lines 205-212) with its `StateSchemas` (lines 215-219). -/
structure AppParams where
  approvalProgram : Bytes
  clearStateProgram : Bytes
  globalState : KeyValue
  localSchema : Schema
  globalSchema : Schema
  extraProgramPages : Nat
  deriving Repr, DecidableEq

/-- `AccountData` (user_balance.rs lines 93-192). -/
structure AccountData where
  status : Status
  microAlgos : Nat
  rewardsBase : Nat
  rewarded : Nat
  voteId : Bytes
  selectionId : Bytes
  voteFirstValid : Nat
  voteLastValid : Nat
  voteKeyDilution : Nat
  assetParams : List (Nat × AssetParams)
  assets : List (Nat × Holding)
  authAddr : Bytes
  appLocalStates : List (Nat × LocalState)
  appParams : List (Nat × AppParams)
  totalAppSchema : Schema
  totalExtraAppPages : Nat
  deriving DecidableEq

/-- The part of an account the functions of `Verif.Model.Balance` look at. -/
def AccountData.account (a : AccountData) : Account :=
  ⟨a.status, a.microAlgos, a.rewardsBase, a.rewarded, a.voteKeyDilution, a.assets.length, a.appParams.length,
    a.appLocalStates.length, a.totalAppSchema, a.totalExtraAppPages⟩

/-- `GenesisAllocation` (genesis.rs lines 138-151). -/
structure Allocation where
  address : Bytes
  comment : Bytes
  state : AccountData
  deriving DecidableEq

/-- `Genesis` (genesis.rs lines 27-66). -/
structure Genesis where
  schemaId : Bytes
  network : Bytes
  proto : Version
  allocation : List Allocation
  rewardsPool : Bytes
  feeSink : Bytes
  timestamp : Nat
  comment : Bytes
  devMode : Bool
  deriving DecidableEq

/-! ## Encoding -/

/-- The variant names of `Status` (user_balance.rs lines 16-30). -/
def statusName : Status → List Char
  | .offline => ['O', 'f', 'f', 'l', 'i', 'n', 'e']
  | .online => ['O', 'n', 'l', 'i', 'n', 'e']
  | .notParticipating => ['N', 'o', 't', 'P', 'a', 'r', 't', 'i', 'c', 'i', 'p', 'a', 't', 'i', 'n', 'g']

/-- The variant names of `TealType` (teal.rs lines 165-172). -/
def tealTypeName : TealType → List Char
  | .bytes => ['B', 'y', 't', 'e', 's']
  | .uint => ['U', 'i', 'n', 't']

/-- `TealValue` (teal.rs lines 185-190). -/
def tealValueMP (v : TealValue) : MP := .arr [strLit (tealTypeName v.tealType), bytesArr v.bytes, .uint v.uint]

/-- A `HashMap`. -/
def mapMP {κ ν : Type} (k : κ → MP) (v : ν → MP) (l : List (κ × ν)) : MP := .map (l.flatMap fun e => [k e.1, v e.2])

/-- `TealKeyValue` (teal.rs line 238). -/
def keyValueMP (kv : KeyValue) : MP := mapMP .str tealValueMP kv

/-- `AssetHolding`. -/
def holdingMP (h : Holding) : MP := .arr [.uint h.amount, .bool h.frozen]

/-- `AppLocalState`. -/
def localStateMP (s : LocalState) : MP := .arr [schemaMP s.schema, keyValueMP s.keyValue]

/-- `AppParams`. -/
def appParamsMP (p : AppParams) : MP :=
  .arr [bytesArr p.approvalProgram, bytesArr p.clearStateProgram, keyValueMP p.globalState,
    .arr [schemaMP p.localSchema, schemaMP p.globalSchema], .uint p.extraProgramPages]

/-- `AccountData`. -/
def accountMP (a : AccountData) : MP :=
  .arr [strLit (statusName a.status), .uint a.microAlgos, .uint a.rewardsBase, .uint a.rewarded, .bin a.voteId,
    bytesArr a.selectionId, .uint a.voteFirstValid, .uint a.voteLastValid, .uint a.voteKeyDilution,
    mapMP .uint assetParamsMP a.assetParams, mapMP .uint holdingMP a.assets, .bin a.authAddr,
    mapMP .uint localStateMP a.appLocalStates, mapMP .uint appParamsMP a.appParams, schemaMP a.totalAppSchema,
    .uint a.totalExtraAppPages]

/-- `GenesisAllocation`. -/
def allocationMP (a : Allocation) : MP := .arr [.str a.address, .str a.comment, accountMP a.state]

/-- `Genesis`. -/
def genesisMP (g : Genesis) : MP :=
  .arr [.str g.schemaId, .str g.network, strLit (versionName g.proto), .arr (g.allocation.map allocationMP),
    .str g.rewardsPool, .str g.feeSink, .uint g.timestamp, .str g.comment, .bool g.devMode]

/-- `Hashable for Genesis` and `hash_obj` (genesis.rs lines 153-157). -/
def genesisHash (hash : Bytes → Bytes) (g : Genesis) : Bytes := hash (hashRep ⟨.genesis, enc (genesisMP g)⟩)

/-! ## Decoding -/

/-- The values of the field with a position and a name. -/
def named (pos : Nat) (name : List Char) : List MP → List MP
  | key :: v :: rest =>
    if isKey (some pos) (asciiBytes name) key then v :: named pos name rest else named pos name rest
  | _ => []

/-- The values of fields, of which the first has the given position. -/
def fieldsAt (pos : Nat) (kvs : List MP) : List (List Char) → Option (List MP)
  | [] => some []
  | n :: names => do
    let v ← (match named pos n kvs with
      | [v] => some v
      | _ => none)
    let l ← fieldsAt (pos + 1) kvs names
    some (v :: l)

/-- A struct without defaults: its values in order, from an array or from a map. -/
def decStruct (names : List (List Char)) : MP → Option (List MP)
  | .arr l => if l.length = names.length then some l else none
  | .map kvs => do
    let _ ← checkKeys kvs
    fieldsAt 0 kvs names
  | _ => none

/-- A unit variant: its name or its position. -/
def decVariant {α : Type} (all : List α) (name : α → List Char) : MP → Option α
  | .str s => all.find? fun a => asciiBytes (name a) = s
  | .bin s => all.find? fun a => asciiBytes (name a) = s
  | .uint n => all[n]?
  | _ => none

/-- The entries of a `HashMap`: of two entries with the same key the later one stays. -/
def decEntries {κ ν : Type} [DecidableEq κ] (fk : MP → Option κ) (fv : MP → Option ν) : List MP → Option (List (κ × ν))
  | k :: v :: rest => do
    let a ← fk k
    let b ← fv v
    let l ← decEntries fk fv rest
    some (if a ∈ l.map Prod.fst then l else (a, b) :: l)
  | _ => some []

/-- A `HashMap`. -/
def decMap {κ ν : Type} [DecidableEq κ] (fk : MP → Option κ) (fv : MP → Option ν) : MP → Option (List (κ × ν))
  | .map kvs => decEntries fk fv kvs
  | _ => none

/-- `TealType`. -/
def decTealType : MP → Option TealType := decVariant [.bytes, .uint] tealTypeName

/-- `TealValue`. -/
def decTealValue (v : MP) : Option TealValue := do
  match ← decStruct [['t', 'e', 'a', 'l', '_', 't', 'y', 'p', 'e'], ['b', 'y', 't', 'e', 's'], ['u', 'i', 'n', 't']] v with
  | [a, b, c] =>
    let tealType ← decTealType a
    let bytes ← decBytes b
    let uint ← decUint u64Lim c
    some ⟨tealType, bytes, uint⟩
  | _ => none

/-- `TealKeyValue`. -/
def decKeyValue : MP → Option KeyValue := decMap decStr decTealValue

/-- `AssetHolding`. -/
def decHolding (v : MP) : Option Holding := do
  match ← decStruct [['a', 'm', 'o', 'u', 'n', 't'], ['f', 'r', 'o', 'z', 'e', 'n']] v with
  | [a, b] =>
    let amount ← decUint u64Lim a
    let frozen ← decBool b
    some ⟨amount, frozen⟩
  | _ => none

/-- `AppLocalState`. -/
def decLocalState (v : MP) : Option LocalState := do
  match ← decStruct [['s', 'c', 'h', 'e', 'm', 'a'], ['k', 'e', 'y', '_', 'v', 'a', 'l', 'u', 'e']] v with
  | [a, b] =>
    let schema ← decSchema a
    let keyValue ← decKeyValue b
    some ⟨schema, keyValue⟩
  | _ => none

/-- `StateSchemas`. -/
def decSchemas (v : MP) : Option (Schema × Schema) := do
  match ← decStruct [Key.chars .localStateSchema, Key.chars .globalStateSchema] v with
  | [a, b] =>
    let l ← decSchema a
    let g ← decSchema b
    some (l, g)
  | _ => none

/-- The names of the fields of `AppParams`. -/
def appParamsNames : List (List Char) :=
  [Key.chars .approvalProgram, Key.chars .clearStateProgram, ['g', 'l', 'o', 'b', 'a', 'l', '_', 's', 't', 'a', 't', 'e'],
    ['s', 't', 'a', 't', 'e', '_', 's', 'c', 'h', 'e', 'm', 'a', 's'], Key.chars .extraProgramPages]

/-- `AppParams`. -/
def decAppParams (v : MP) : Option AppParams := do
  match ← decStruct appParamsNames v with
  | [a, b, c, d, e] =>
    let approvalProgram ← decBytes a
    let clearStateProgram ← decBytes b
    let globalState ← decKeyValue c
    let schemas ← decSchemas d
    let extraProgramPages ← decUint u32Lim e
    some ⟨approvalProgram, clearStateProgram, globalState, schemas.1, schemas.2, extraProgramPages⟩
  | _ => none

/-- The names of the fields of `AccountData`. -/
def accountNames : List (List Char) :=
  [['s', 't', 'a', 't', 'u', 's'], ['m', 'i', 'c', 'r', 'o', '_', 'a', 'l', 'g', 'o', 's'],
    ['r', 'e', 'w', 'a', 'r', 'd', 's', '_', 'b', 'a', 's', 'e'],
    ['r', 'e', 'w', 'a', 'r', 'd', 'e', 'd', '_', 'm', 'i', 'c', 'r', 'o', '_', 'a', 'l', 'g', 'o', 's'],
    ['v', 'o', 't', 'e', '_', 'i', 'd'], ['s', 'e', 'l', 'e', 'c', 't', 'i', 'o', 'n', '_', 'i', 'd'],
    ['v', 'o', 't', 'e', '_', 'f', 'i', 'r', 's', 't', '_', 'v', 'a', 'l', 'i', 'd'],
    ['v', 'o', 't', 'e', '_', 'l', 'a', 's', 't', '_', 'v', 'a', 'l', 'i', 'd'], Key.chars .voteKeyDilution,
    Key.chars .assetParams, ['a', 's', 's', 'e', 't', 's'], Key.chars .authAddr,
    ['a', 'p', 'p', '_', 'l', 'o', 'c', 'a', 'l', '_', 's', 't', 'a', 't', 'e', 's'],
    ['a', 'p', 'p', '_', 'p', 'a', 'r', 'a', 'm', 's'],
    ['t', 'o', 't', 'a', 'l', '_', 'a', 'p', 'p', '_', 's', 'c', 'h', 'e', 'm', 'a'],
    ['t', 'o', 't', 'a', 'l', '_', 'e', 'x', 't', 'r', 'a', '_', 'a', 'p', 'p', '_', 'p', 'a', 'g', 'e', 's']]

/-- `AccountData`. -/
def decAccount (L : Lib) (v : MP) : Option AccountData := do
  match ← decStruct accountNames v with
  | [a1, a2, a3, a4, a5, a6, a7, a8, a9, a10, a11, a12, a13, a14, a15, a16] =>
    let status ← decVariant [.offline, .online, .notParticipating] statusName a1
    let microAlgos ← decUint u64Lim a2
    let rewardsBase ← decUint u64Lim a3
    let rewarded ← decUint u64Lim a4
    let voteId ← decPk L a5
    let selectionId ← decArr 32 a6
    let voteFirstValid ← decUint u64Lim a7
    let voteLastValid ← decUint u64Lim a8
    let voteKeyDilution ← decUint u64Lim a9
    let assetParams ← decMap (decUint u64Lim) (decAssetParams (decAddrDirect L)) a10
    let assets ← decMap (decUint u64Lim) decHolding a11
    let authAddr ← decAddrDirect L a12
    let appLocalStates ← decMap (decUint u64Lim) decLocalState a13
    let appParams ← decMap (decUint u64Lim) decAppParams a14
    let totalAppSchema ← decSchema a15
    let totalExtraAppPages ← decUint u32Lim a16
    some ⟨status, microAlgos, rewardsBase, rewarded, voteId, selectionId, voteFirstValid, voteLastValid, voteKeyDilution,
      assetParams, assets, authAddr, appLocalStates, appParams, totalAppSchema, totalExtraAppPages⟩
  | _ => none

/-- `GenesisAllocation`. -/
def decAllocation (L : Lib) (v : MP) : Option Allocation := do
  match ← decStruct [['a', 'd', 'd', 'r', 'e', 's', 's'], ['c', 'o', 'm', 'm', 'e', 'n', 't'], ['s', 't', 'a', 't', 'e']] v with
  | [a, b, c] =>
    let address ← decStr a
    let comment ← decStr b
    let state ← decAccount L c
    some ⟨address, comment, state⟩
  | _ => none

/-- The names of the fields of `Genesis`. -/
def genesisNames : List (List Char) :=
  [['s', 'c', 'h', 'e', 'm', 'a', '_', 'i', 'd'], ['n', 'e', 't', 'w', 'o', 'r', 'k'], ['p', 'r', 'o', 't', 'o'],
    ['a', 'l', 'l', 'o', 'c', 'a', 't', 'i', 'o', 'n'], ['r', 'e', 'w', 'a', 'r', 'd', 's', '_', 'p', 'o', 'o', 'l'],
    ['f', 'e', 'e', '_', 's', 'i', 'n', 'k'], ['t', 'i', 'm', 'e', 's', 't', 'a', 'm', 'p'],
    ['c', 'o', 'm', 'm', 'e', 'n', 't'], ['d', 'e', 'v', '_', 'm', 'o', 'd', 'e']]

/-- `Genesis`. -/
def decGenesis (L : Lib) (v : MP) : Option Genesis := do
  match ← decStruct genesisNames v with
  | [a, b, c, d, e, f, g, h, i] =>
    let schemaId ← decStr a
    let network ← decStr b
    let proto ← decVariant Version.all versionName c
    let allocation ← decVec (decAllocation L) d
    let rewardsPool ← decStr e
    let feeSink ← decStr f
    let timestamp ← decUint u64Lim g
    let comment ← decStr h
    let devMode ← decBool i
    some ⟨schemaId, network, proto, allocation, rewardsPool, feeSink, timestamp, comment, devMode⟩
  | _ => none

/-- `Genesis::load_from_file` (genesis.rs lines 124-129); `file` is the content, if the file can be opened. -/
def loadFromFile (L : Lib) (file : Option Bytes) : Res Unit Genesis := do
  let bytes ← Res.ofOption file
  let value ← Res.ofOption (decode bytes)
  Res.ofOption (decGenesis L value.1)

end Verif.Genesis
