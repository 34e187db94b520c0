import Verif.Model.Genesis
import Verif.Lemmas.CodecBlock
/-!
# The encoding of the genesis data: sizes, and reading back what was written
-/

namespace Verif.Genesis
open Verif Verif.Msgpack Verif.Codec Verif.HashId Verif.Teal Verif.Balance Verif.Consensus Verif.Tx

/-- A map: no key twice, every entry of its type. -/
def MapTyped {κ ν : Type} (K : κ → Prop) (V : ν → Prop) (l : List (κ × ν)) : Prop :=
  l.length < u32Lim ∧ (l.map Prod.fst).Nodup ∧ ∀ e ∈ l, K e.1 ∧ V e.2

/-- A `String`. -/
def TextTyped (s : Bytes) : Prop := s.length < u32Lim ∧ utf8 s = true

/-- A `StateSchema`. -/
def SchemaTyped (s : Schema) : Prop := s.numUint < u64Lim ∧ s.numByteSlice < u64Lim

/-- A `TealValue`. -/
def TealTyped (v : TealValue) : Prop := v.bytes.length < u32Lim ∧ v.uint < u64Lim

/-- A `TealKeyValue`. -/
def KeyValueTyped (l : KeyValue) : Prop := MapTyped TextTyped TealTyped l

/-- An `AppLocalState`. -/
def LocalStateTyped (s : LocalState) : Prop := SchemaTyped s.schema ∧ KeyValueTyped s.keyValue

/-- An `AppParams`. -/
structure AppParamsTyped (p : AppParams) : Prop where
  approvalProgram : p.approvalProgram.length < u32Lim
  clearStateProgram : p.clearStateProgram.length < u32Lim
  globalState : KeyValueTyped p.globalState
  localSchema : SchemaTyped p.localSchema
  globalSchema : SchemaTyped p.globalSchema
  extraProgramPages : p.extraProgramPages < u32Lim

/-- An `AccountData` is a value of its Rust type; the key is one the library accepts. -/
structure AccountTyped (L : Lib) (a : AccountData) : Prop where
  microAlgos : a.microAlgos < u64Lim
  rewardsBase : a.rewardsBase < u64Lim
  rewarded : a.rewarded < u64Lim
  voteId : a.voteId.length = 32
  voteIdKey : L.validPk a.voteId = true
  selectionId : a.selectionId.length = 32
  voteFirstValid : a.voteFirstValid < u64Lim
  voteLastValid : a.voteLastValid < u64Lim
  voteKeyDilution : a.voteKeyDilution < u64Lim
  assetParams : MapTyped (· < u64Lim) AssetParamsTyped a.assetParams
  assets : MapTyped (· < u64Lim) (fun h => h.amount < u64Lim) a.assets
  authAddr : a.authAddr.length = 32
  appLocalStates : MapTyped (· < u64Lim) LocalStateTyped a.appLocalStates
  appParams : MapTyped (· < u64Lim) AppParamsTyped a.appParams
  totalAppSchema : SchemaTyped a.totalAppSchema
  totalExtraAppPages : a.totalExtraAppPages < u32Lim

/-- A `GenesisAllocation`. -/
structure AllocationTyped (L : Lib) (a : Allocation) : Prop where
  address : TextTyped a.address
  comment : TextTyped a.comment
  state : AccountTyped L a.state

/-- A `Genesis`. -/
structure GenesisTyped (L : Lib) (g : Genesis) : Prop where
  schemaId : TextTyped g.schemaId
  network : TextTyped g.network
  allocation : g.allocation.length < u32Lim ∧ ∀ a ∈ g.allocation, AllocationTyped L a
  rewardsPool : TextTyped g.rewardsPool
  feeSink : TextTyped g.feeSink
  timestamp : g.timestamp < u64Lim
  comment : TextTyped g.comment

theorem AccountTyped.sizes {L : Lib} {a : AccountData} (h : AccountTyped L a) : AccountTyped sizesOnly a :=
  { h with voteIdKey := rfl }

theorem GenesisTyped.sizes {L : Lib} {g : Genesis} (h : GenesisTyped L g) : GenesisTyped sizesOnly g :=
  { h with allocation := ⟨h.allocation.1, fun a ha =>
      { h.allocation.2 a ha with state := (h.allocation.2 a ha).state.sizes }⟩ }

/-! ## Sizes -/

theorem fits_mapMP {κ ν : Type} {K : κ → Prop} {V : ν → Prop} {k : κ → MP} {v : ν → MP} {l : List (κ × ν)}
    (h : MapTyped K V l) (hk : ∀ a, K a → (k a).Fits) (hv : ∀ a, V a → (v a).Fits) : (mapMP k v l).Fits := by
  have hlen : (l.flatMap fun e => [k e.1, v e.2]).length = 2 * l.length := by
    clear h
    induction l with
    | nil => rfl
    | cons e l ih => rw [List.flatMap_cons, List.length_append, ih]; simp; omega
  rw [mapMP, MP.Fits, hlen]
  refine ⟨by omega, by rw [Nat.mul_div_cancel_left _ (by decide)]; exact h.1, (fitsList_iff _).2 ?_⟩
  intro a ha
  rw [List.mem_flatMap] at ha
  obtain ⟨e, he, ha⟩ := ha
  have := h.2.2 e he
  rcases List.mem_cons.1 ha with rfl | ha
  · exact hk _ this.1
  · rw [List.mem_singleton] at ha
    subst ha
    exact hv _ this.2

/-- A short array of values. -/
theorem fits_short {l : List MP} (h : l.length ≤ 16) (hl : FitsList l) : (MP.arr l).Fits := by
  rw [MP.Fits]
  exact ⟨Nat.lt_of_le_of_lt h (by decide), hl⟩

theorem fits_teal {v : TealValue} (h : TealTyped v) : (tealValueMP v).Fits :=
  fits_short (by simp) ⟨fits_strLit (by cases v.tealType <;> decide), fits_bytesArr h.1, fits_uint h.2, trivial⟩

theorem fits_keyValue {l : KeyValue} (h : KeyValueTyped l) : (keyValueMP l).Fits :=
  fits_mapMP h (fun _ h => fits_str h.1) (fun _ => fits_teal)

theorem fits_localState {s : LocalState} (h : LocalStateTyped s) : (localStateMP s).Fits :=
  fits_short (by simp) ⟨fits_schema h.1, fits_keyValue h.2, trivial⟩

theorem fits_holding {s : Holding} (h : s.amount < u64Lim) : (holdingMP s).Fits :=
  fits_short (by simp) ⟨fits_uint h, fits_bool _, trivial⟩

theorem fits_appParams {p : AppParams} (h : AppParamsTyped p) : (appParamsMP p).Fits :=
  fits_short (by simp) ⟨fits_bytesArr h.approvalProgram, fits_bytesArr h.clearStateProgram, fits_keyValue h.globalState,
    fits_short (by simp) ⟨fits_schema h.localSchema, fits_schema h.globalSchema, trivial⟩,
    fits_uint (u32_u64 h.extraProgramPages), trivial⟩

theorem fits_account {L : Lib} {a : AccountData} (h : AccountTyped L a) : (accountMP a).Fits :=
  fits_short (by simp) ⟨fits_strLit (by cases a.status <;> decide), fits_uint h.microAlgos, fits_uint h.rewardsBase,
    fits_uint h.rewarded, fits_bin (l32 h.voteId), fits_bytesArr (l32 h.selectionId), fits_uint h.voteFirstValid,
    fits_uint h.voteLastValid, fits_uint h.voteKeyDilution,
    fits_mapMP h.assetParams (fun _ => fits_uint) (fun _ => fits_assetParams),
    fits_mapMP h.assets (fun _ => fits_uint) (fun _ => fits_holding), fits_bin (l32 h.authAddr),
    fits_mapMP h.appLocalStates (fun _ => fits_uint) (fun _ => fits_localState),
    fits_mapMP h.appParams (fun _ => fits_uint) (fun _ => fits_appParams), fits_schema h.totalAppSchema,
    fits_uint (u32_u64 h.totalExtraAppPages), trivial⟩

theorem fits_allocation {L : Lib} {a : Allocation} (h : AllocationTyped L a) : (allocationMP a).Fits :=
  fits_short (by simp) ⟨fits_str h.address.1, fits_str h.comment.1, fits_account h.state, trivial⟩

theorem fits_genesis {L : Lib} {g : Genesis} (h : GenesisTyped L g) : (genesisMP g).Fits :=
  fits_short (by simp) ⟨fits_str h.schemaId.1, fits_str h.network.1, fits_strLit (by cases g.proto <;> decide),
    fits_arr_map h.allocation.1 (fun a ha => fits_allocation (h.allocation.2 a ha)), fits_str h.rewardsPool.1,
    fits_str h.feeSink.1, fits_uint h.timestamp, fits_str h.comment.1, fits_bool _, trivial⟩

/-! ## Reading back -/

theorem decStruct_arr {names : List (List Char)} {l : List MP} (h : l.length = names.length) :
    decStruct names (.arr l) = some l := by rw [decStruct, if_pos h]

theorem decMap_mapMP {κ ν : Type} [DecidableEq κ] {fk : MP → Option κ} {fv : MP → Option ν} {k : κ → MP} {v : ν → MP}
    {K : κ → Prop} {V : ν → Prop} {l : List (κ × ν)} (h : MapTyped K V l) (hk : ∀ a, K a → fk (k a) = some a)
    (hv : ∀ a, V a → fv (v a) = some a) : decMap fk fv (mapMP k v l) = some l := by
  obtain ⟨h0, h1, h2⟩ := h
  clear h0
  rw [mapMP, decMap]
  induction l with
  | nil => rfl
  | cons e l ih =>
    obtain ⟨a, b⟩ := e
    rw [List.map_cons, List.nodup_cons] at h1
    have := h2 (a, b) (by simp)
    rw [List.flatMap_cons]
    simp only [List.cons_append, List.nil_append, decEntries, hk a this.1, hv b this.2,
      ih h1.2 (fun e he => h2 e (by simp [he])), bind, Option.bind_some]
    exact congrArg some (if_neg h1.1)

theorem decText {s : Bytes} (h : TextTyped s) : decStr (.str s) = some s := by rw [decStr, if_pos h.2]

theorem decUint_lt {n lim : Nat} (h : n < lim) : decUint lim (.uint n) = some n := by rw [decUint, if_pos h]

theorem decTeal_mp {v : TealValue} (h : TealTyped v) : decTealValue (tealValueMP v) = some v := by
  obtain ⟨t, b, n⟩ := v
  have : decTealType (strLit (tealTypeName t)) = some t := by cases t <;> decide
  rw [decTealValue, tealValueMP, decStruct_arr rfl]
  simp [this, decBytes_bytesArr, decUint_lt h.2]

theorem decKeyValue_mp {l : KeyValue} (h : KeyValueTyped l) : decKeyValue (keyValueMP l) = some l :=
  decMap_mapMP h (fun _ => decText) (fun _ => decTeal_mp)

theorem decHolding_mp {s : Holding} (h : s.amount < u64Lim) : decHolding (holdingMP s) = some s := by
  obtain ⟨a, f⟩ := s
  rw [decHolding, holdingMP, decStruct_arr rfl]
  simp [decUint_lt h, decBool]

theorem decLocalState_mp {s : LocalState} (h : LocalStateTyped s) : decLocalState (localStateMP s) = some s := by
  obtain ⟨a, f⟩ := s
  rw [decLocalState, localStateMP, decStruct_arr rfl]
  simp [decSchema_mp _ h.1, decKeyValue_mp h.2]

theorem decAppParams_mp {p : AppParams} (h : AppParamsTyped p) : decAppParams (appParamsMP p) = some p := by
  obtain ⟨p1, p2, p3, p4, p5, p6⟩ := p
  obtain ⟨_, _, h3, h4, h5, h6⟩ := h
  rw [decAppParams, appParamsMP, decStruct_arr rfl]
  have : decSchemas (.arr [schemaMP p4, schemaMP p5]) = some (p4, p5) := by
    rw [decSchemas, decStruct_arr rfl]
    simp [decSchema_mp _ h4, decSchema_mp _ h5]
  simp only at h3 h6
  simp [decBytes_bytesArr, decKeyValue_mp h3, this, decUint_lt h6]

theorem decStatus_name (s : Status) :
    decVariant [.offline, .online, .notParticipating] statusName (strLit (statusName s)) = some s := by cases s <;> decide

theorem decVersion_name (v : Version) : decVariant Version.all versionName (strLit (versionName v)) = some v := by
  cases v <;> decide +kernel

theorem decAddrDirect_bin {L : Lib} (hL : L.binAsSeq = true) {b : Bytes} (h : b.length = 32) :
    decAddrDirect L (.bin b) = some b := by rw [decAddrDirect, if_pos ⟨hL, h⟩]

theorem decAssetParams_direct {L : Lib} (hL : L.binAsSeq = true) {p : AssetParams} (h : AssetParamsTyped p) :
    decAssetParams (decAddrDirect L) (assetParamsMP p) = some p := by
  rw [decAssetParams_mp _ p h, decAddrDirect_bin hL h.manager, decAddrDirect_bin hL h.reserve,
    decAddrDirect_bin hL h.freeze, decAddrDirect_bin hL h.clawback]
  rfl

theorem decAccount_mp {L : Lib} (hL : L.binAsSeq = true) {a : AccountData} (h : AccountTyped L a) :
    decAccount L (accountMP a) = some a := by
  obtain ⟨p1, p2, p3, p4, p5, p6, p7, p8, p9, p10, p11, p12, p13, p14, p15, p16⟩ := a
  obtain ⟨h2, h3, h4, h5, h5', h6, h7, h8, h9, h10, h11, h12, h13, h14, h15, h16⟩ := h
  rw [decAccount, accountMP, decStruct_arr rfl]
  refine Option.bind_eq_some_iff.2 ⟨_, rfl, ?_⟩
  refine Option.bind_eq_some_iff.2 ⟨_, decStatus_name p1, ?_⟩
  refine Option.bind_eq_some_iff.2 ⟨_, decUint_lt h2, ?_⟩
  refine Option.bind_eq_some_iff.2 ⟨_, decUint_lt h3, ?_⟩
  refine Option.bind_eq_some_iff.2 ⟨_, decUint_lt h4, ?_⟩
  refine Option.bind_eq_some_iff.2 ⟨_, decPk_bin L _ h5 h5', ?_⟩
  refine Option.bind_eq_some_iff.2 ⟨_, (decArr_bytesArr 32 p6).trans (if_pos h6), ?_⟩
  refine Option.bind_eq_some_iff.2 ⟨_, decUint_lt h7, ?_⟩
  refine Option.bind_eq_some_iff.2 ⟨_, decUint_lt h8, ?_⟩
  refine Option.bind_eq_some_iff.2 ⟨_, decUint_lt h9, ?_⟩
  refine Option.bind_eq_some_iff.2 ⟨_, decMap_mapMP h10 (fun _ => decUint_lt) (fun _ => decAssetParams_direct hL), ?_⟩
  refine Option.bind_eq_some_iff.2 ⟨_, decMap_mapMP h11 (fun _ => decUint_lt) (fun _ => decHolding_mp), ?_⟩
  refine Option.bind_eq_some_iff.2 ⟨_, decAddrDirect_bin hL h12, ?_⟩
  refine Option.bind_eq_some_iff.2 ⟨_, decMap_mapMP h13 (fun _ => decUint_lt) (fun _ => decLocalState_mp), ?_⟩
  refine Option.bind_eq_some_iff.2 ⟨_, decMap_mapMP h14 (fun _ => decUint_lt) (fun _ => decAppParams_mp), ?_⟩
  refine Option.bind_eq_some_iff.2 ⟨_, decSchema_mp _ h15, ?_⟩
  refine Option.bind_eq_some_iff.2 ⟨_, decUint_lt h16, ?_⟩
  rfl

/-- An account is never read back if the reader does not take a binary string for an array. -/
theorem decAccount_none {L : Lib} (hL : L.binAsSeq = false) (a : AccountData) : decAccount L (accountMP a) = none := by
  cases hd : decAccount L (accountMP a) with
  | none => rfl
  | some x =>
    exfalso
    rw [decAccount, accountMP, decStruct_arr rfl] at hd
    obtain ⟨_, e, hd⟩ := Option.bind_eq_some_iff.1 hd
    injection e with e
    subst e
    obtain ⟨_, _, hd⟩ := Option.bind_eq_some_iff.1 hd
    obtain ⟨_, _, hd⟩ := Option.bind_eq_some_iff.1 hd
    obtain ⟨_, _, hd⟩ := Option.bind_eq_some_iff.1 hd
    obtain ⟨_, _, hd⟩ := Option.bind_eq_some_iff.1 hd
    obtain ⟨_, _, hd⟩ := Option.bind_eq_some_iff.1 hd
    obtain ⟨_, _, hd⟩ := Option.bind_eq_some_iff.1 hd
    obtain ⟨_, _, hd⟩ := Option.bind_eq_some_iff.1 hd
    obtain ⟨_, _, hd⟩ := Option.bind_eq_some_iff.1 hd
    obtain ⟨_, _, hd⟩ := Option.bind_eq_some_iff.1 hd
    obtain ⟨_, _, hd⟩ := Option.bind_eq_some_iff.1 hd
    obtain ⟨_, _, hd⟩ := Option.bind_eq_some_iff.1 hd
    obtain ⟨_, h, hd⟩ := Option.bind_eq_some_iff.1 hd
    rw [decAddrDirect, hL] at h
    simp at h

theorem decAllocation_mp {L : Lib} (hL : L.binAsSeq = true) {a : Allocation} (h : AllocationTyped L a) :
    decAllocation L (allocationMP a) = some a := by
  obtain ⟨p1, p2, p3⟩ := a
  obtain ⟨h1, h2, h3⟩ := h
  rw [decAllocation, allocationMP, decStruct_arr rfl]
  simp only at h1 h2 h3
  simp [decText h1, decText h2, decAccount_mp hL h3]

theorem decAllocation_none {L : Lib} (hL : L.binAsSeq = false) (a : Allocation) :
    decAllocation L (allocationMP a) = none := by
  obtain ⟨p1, p2, p3⟩ := a
  rw [decAllocation, allocationMP, decStruct_arr rfl]
  simp [decAccount_none hL]

theorem decGenesis_mp {L : Lib} {g : Genesis} (h : GenesisTyped L g) :
    decGenesis L (genesisMP g) = if g.allocation = [] ∨ L.binAsSeq = true then some g else none := by
  obtain ⟨g1, g2, g3, g4, g5, g6, g7, g8, g9⟩ := g
  obtain ⟨h1, h2, h4, h5, h6, h7, h8⟩ := h
  simp only at h1 h2 h4 h5 h6 h7 h8
  have key : decVec (decAllocation L) (.arr (g4.map allocationMP)) =
      if g4 = [] ∨ L.binAsSeq = true then some g4 else none := by
    split
    · rename_i hc
      refine decVec_map _ _ _ fun a ha => ?_
      rcases hc with rfl | hc
      · cases ha
      · exact decAllocation_mp hc (h4.2 a ha)
    · rename_i hc
      rw [not_or, Bool.not_eq_true] at hc
      obtain ⟨a, l, rfl⟩ := List.exists_cons_of_ne_nil hc.1
      exact mapM_none _ _ _ ⟨a, by simp, decAllocation_none hc.2 a⟩
  rw [decGenesis, genesisMP, decStruct_arr rfl]
  simp only [bind, Option.bind_some, decText h1, decText h2, decVersion_name, key, decText h5, decText h6, decUint_lt h7,
    decText h8, decBool]
  split <;> rfl

/-- The encoding determines the genesis data. -/
theorem genesisMP_inj {a b : Genesis} (ha : GenesisTyped sizesOnly a) (hb : GenesisTyped sizesOnly b)
    (h : genesisMP a = genesisMP b) : a = b := by
  have e1 := decGenesis_mp ha
  have e2 := decGenesis_mp hb
  rw [if_pos (Or.inr (show sizesOnly.binAsSeq = true from rfl))] at e1 e2
  rw [h, e2] at e1
  exact (Option.some.inj e1).symm

end Verif.Genesis
