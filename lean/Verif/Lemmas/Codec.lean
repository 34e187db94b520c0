import Verif.Model.Codec
import Verif.Lemmas.Msgpack
import Mathlib.Data.List.Nodup
/-!
# Reading back encoded transactions
-/

namespace Verif.Codec
open Verif Verif.Msgpack Verif.HashId Verif.Tx Verif.Multisig Verif.Consensus Verif.Block

theorem key_mem_all (k : Key) : k ∈ Key.all := by cases k <;> decide

theorem key_nodup : (Key.all.map Key.bytes).Nodup := by decide +kernel

theorem key_bytes_inj {a b : Key} (h : a.bytes = b.bytes) : a = b :=
  List.inj_on_of_nodup_map key_nodup (key_mem_all a) (key_mem_all b) h

/-- The values of the pairs with a given key. -/
def valsP (k : Key) (ps : List (Key × MP)) : List MP := (ps.filter (fun p => p.1 = k)).map Prod.snd

theorem isKey_str (pos : Option Nat) (name s : Bytes) : isKey pos name (.str s) = decide (s = name) := by
  simp [isKey, keyBytes]

theorem checkKeys_flat (ps : List (Key × MP)) : checkKeys (flat ps) = some () := by
  induction ps with
  | nil => rfl
  | cons p ps ih =>
    obtain ⟨k, v⟩ := p
    rw [flat, checkKeys, if_pos (show keyOk (.str k.bytes) = true from rfl), ih]

theorem vals_flat (pos : Option Nat) (k : Key) (ps : List (Key × MP)) : vals pos k (flat ps) = valsP k ps := by
  induction ps with
  | nil => rfl
  | cons p ps ih =>
    obtain ⟨k', v⟩ := p
    simp only [flat, vals]
    rw [valsP, List.filter_cons]
    by_cases h : k' = k
    · subst h
      rw [if_pos (by rw [isKey_str]; exact decide_eq_true rfl), ih]
      simp [valsP]
    · rw [if_neg (by rw [isKey_str]; exact fun e => h (key_bytes_inj (of_decide_eq_true e))), ih]
      simp [h, valsP]

theorem valsP_nil (k : Key) : valsP k [] = [] := rfl

theorem valsP_append (k : Key) (a b : List (Key × MP)) : valsP k (a ++ b) = valsP k a ++ valsP k b := by
  simp [valsP]

theorem valsP_cons (k k' : Key) (v : MP) (b : List (Key × MP)) :
    valsP k ((k', v) :: b) = if k' = k then v :: valsP k b else valsP k b := by
  simp only [valsP, List.filter_cons]
  by_cases h : k' = k <;> simp [h]

theorem valsP_skipIf (k k' : Key) (c : Bool) (v : MP) :
    valsP k (skipIf c k' v) = if k' = k then (if c then [] else [v]) else [] := by
  unfold skipIf
  by_cases h : k' = k <;> cases c <;> simp [h, valsP]

theorem req_one {α : Type} {pos : Option Nat} {k : Key} {f : MP → Option α} {ps : List (Key × MP)} {v : MP} (h : valsP k ps = [v]) :
    req pos k f (flat ps) = f v := by
  simp [req, vals_flat, h]

theorem opt_skip {α : Type} [DecidableEq α] {pos : Option Nat} {k : Key} {f : MP → Option α} {ps : List (Key × MP)} {v : MP} {d a : α}
    (h : valsP k ps = if decide (a = d) then [] else [v]) :
    opt pos k f d (flat ps) = if a = d then some a else f v := by
  simp only [opt, vals_flat, h]
  by_cases hc : a = d <;> simp [hc]

theorem decByte_toNat (b : UInt8) : decByte (.uint b.toNat) = some b := by
  simp [decByte]
  exact UInt8.toNat_lt b

theorem mapM_map_some {α β : Type} (f : MP → Option α) (g : β → MP) (h : β → α) (l : List β)
    (hs : ∀ b ∈ l, f (g b) = some (h b)) : (l.map g).mapM f = some (l.map h) := by
  induction l with
  | nil => rfl
  | cons b l ih =>
    rw [List.map_cons, List.mapM_cons, hs b (by simp), ih (fun x hx => hs x (by simp [hx]))]
    rfl

theorem mapM_none {α β : Type} (f : MP → Option α) (g : β → MP) (l : List β)
    (hs : ∃ b ∈ l, f (g b) = none) : (l.map g).mapM f = none := by
  induction l with
  | nil => simp at hs
  | cons b l ih =>
    rw [List.map_cons, List.mapM_cons]
    cases hb : f (g b) with
    | none => rfl
    | some x =>
      have : ∃ c ∈ l, f (g c) = none := by
        obtain ⟨c, hc, h⟩ := hs
        simp only [List.mem_cons] at hc
        rcases hc with rfl | hc
        · rw [hb] at h; exact absurd h (by simp)
        · exact ⟨c, hc, h⟩
      rw [ih this]; rfl

theorem decVec_map {α : Type} (f : MP → Option α) (g : α → MP) (l : List α) (hs : ∀ b ∈ l, f (g b) = some b) :
    decVec f (.arr (l.map g)) = some l := by
  have := mapM_map_some f g id l hs
  simpa [decVec] using this

theorem decBytes_bytesArr (b : Bytes) : decBytes (bytesArr b) = some b :=
  decVec_map decByte _ b (fun x _ => decByte_toNat x)

theorem decArr_bytesArr (n : Nat) (b : Bytes) : decArr n (bytesArr b) = if b.length = n then some b else none := by
  simp [decArr, decBytes_bytesArr]

theorem decArr_bin (n : Nat) (b : Bytes) : decArr n (.bin b) = none := rfl

theorem decAddr_bin (b : Bytes) : decAddr (.bin b) = none := rfl

/-- The sizes of the fields of a header are those of their Rust types. -/
structure HeaderTyped (h : Header) : Prop where
  sender : h.sender.length = 32
  fee : h.fee < u64Lim
  firstValid : h.firstValid < u64Lim
  lastValid : h.lastValid < u64Lim
  note : h.note.length < u32Lim
  genesisId : h.genesisId.length < u32Lim
  genesisHash : h.genesisHash.length = 32
  group : h.group.length = 32
  lease : h.lease.length = 32
  rekeyTo : h.rekeyTo.length = 32
  genesisIdText : utf8 h.genesisId = true

/-- The sizes of asset parameters are those of their Rust types. -/
structure AssetParamsTyped (p : AssetParams) : Prop where
  total : p.total < u64Lim
  decimals : p.decimals < u32Lim
  unitName : p.unitName.length < u32Lim
  assetName : p.assetName.length < u32Lim
  url : p.url.length < u32Lim
  metadataHash : p.metadataHash.length = 32
  manager : p.manager.length = 32
  reserve : p.reserve.length = 32
  freeze : p.freeze.length = 32
  clawback : p.clawback.length = 32
  unitNameText : utf8 p.unitName = true
  assetNameText : utf8 p.assetName = true
  urlText : utf8 p.url = true

/-- The sizes of the fields of an application call are those of their Rust types. -/
structure AppCallTyped (f : AppCall) : Prop where
  applicationId : f.applicationId < u64Lim
  applicationArgs : f.applicationArgs.length < u32Lim ∧ ∀ a ∈ f.applicationArgs, a.length < u32Lim
  accounts : f.accounts.length < u32Lim ∧ ∀ a ∈ f.accounts, a.length = 32
  foreignApps : f.foreignApps.length < u32Lim ∧ ∀ a ∈ f.foreignApps, a < u64Lim
  foreignAssets : f.foreignAssets.length < u32Lim ∧ ∀ a ∈ f.foreignAssets, a < u64Lim
  localStateSchema : f.localStateSchema.numUint < u64Lim ∧ f.localStateSchema.numByteSlice < u64Lim
  globalStateSchema : f.globalStateSchema.numUint < u64Lim ∧ f.globalStateSchema.numByteSlice < u64Lim
  approvalProgram : f.approvalProgram.length < u32Lim
  clearStateProgram : f.clearStateProgram.length < u32Lim
  extraProgramPages : f.extraProgramPages < u32Lim

/-- The type specific fields are values of their Rust types; a public key is one the library accepts. -/
def FieldsTyped (L : Lib) : Fields → Prop
  | .keyreg f => f.votePk.length = 32 ∧ L.validPk f.votePk = true ∧ f.selectionPk.length = 32 ∧ f.voteFirst < u64Lim ∧
      f.voteLast < u64Lim ∧ f.voteKeyDilution < u64Lim
  | .payment f => f.receiver.length = 32 ∧ f.amount < u64Lim ∧ ∀ a, f.closeRemainderTo = some a → a.length = 32
  | .assetConfig f => f.configAsset < u64Lim ∧ AssetParamsTyped f.assetParams
  | .assetTransfer f => f.transferAsset < u64Lim ∧ f.assetAmount < u64Lim ∧ f.assetSender.length = 32 ∧
      f.assetReceiver.length = 32 ∧ f.assetCloseTo.length = 32
  | .assetFreeze f => f.freezeAccount.length = 32 ∧ f.freezeAsset < u64Lim
  | .appCall f => AppCallTyped f
  | .compactCert f => f.certRound < u64Lim

/-- The transaction is a value of its Rust type. -/
structure TxTyped (L : Lib) (t : Transaction) : Prop where
  header : HeaderTyped t.header
  fields : FieldsTyped L t.fields

/-- The addresses written into the encoding of a header. -/
def headerAddrs (h : Header) : List Bytes :=
  (if h.sender = zero32 then [] else [h.sender]) ++ (if h.rekeyTo = zero32 then [] else [h.rekeyTo])

/-- The addresses written into the encoding of the type specific fields. -/
def bodyAddrs : Fields → List Bytes
  | .keyreg _ => []
  | .payment f => (if f.receiver = zero32 then [] else [f.receiver]) ++ f.closeRemainderTo.toList
  | .assetConfig f => [f.assetParams.manager, f.assetParams.reserve, f.assetParams.freeze, f.assetParams.clawback]
  | .assetTransfer f => [f.assetSender, f.assetReceiver, f.assetCloseTo]
  | .assetFreeze f => [f.freezeAccount]
  | .appCall f => f.accounts
  | .compactCert _ => []

/-- The addresses written into the encoding of a transaction. -/
def txAddrs (t : Transaction) : List Bytes := headerAddrs t.header ++ bodyAddrs t.fields

/-- The keys of a header do not occur after it. -/
theorem body_no_header (f : Fields) :
    ∀ k ∈ [Key.snd, .fee, .fv, .lv, .note, .gen, .gh, .grp, .lx, .rekey], valsP k ((.txType, strLit (tagName f)) :: bodyPairs f) = [] := by
  intro k hk
  simp only [List.mem_cons, List.not_mem_nil, or_false] at hk
  rcases hk with rfl | rfl | rfl | rfl | rfl | rfl | rfl | rfl | rfl | rfl <;> cases f <;>
    simp [bodyPairs, valsP_append, valsP_cons, valsP_skipIf, valsP_nil]

theorem header_keys (h : Header) (k : Key)
    (hk : k ∉ [Key.snd, .fee, .fv, .lv, .note, .gen, .gh, .grp, .lx, .rekey]) : valsP k (headerPairs h) = [] := by
  simp only [List.mem_cons, List.not_mem_nil, or_false, not_or] at hk
  obtain ⟨h1, h2, h3, h4, h5, h6, h7, h8, h9, h10⟩ := hk
  simp [headerPairs, valsP_append, valsP_skipIf, Ne.symm h1, Ne.symm h2, Ne.symm h3, Ne.symm h4, Ne.symm h5, Ne.symm h6,
    Ne.symm h7, Ne.symm h8, Ne.symm h9, Ne.symm h10]

/-- What comes of an address that is omitted if zero. -/
def optA (addr : MP → Option Bytes) (a : Bytes) : Option Bytes := if a = zero32 then some a else addr (.bin a)

theorem optA_eq (addr : MP → Option Bytes) (hnil : ∀ a, addr (.bin a) = none ∨ addr (.bin a) = some a) (a : Bytes) :
    optA addr a = if ∀ x ∈ (if a = zero32 then [] else [a]), addr (.bin x) = some x then some a else none := by
  unfold optA
  by_cases h : a = zero32
  · simp [h]
  · rcases hnil a with e | e <;> simp [h, e]

theorem decHeader_eq (addr : MP → Option Bytes) (h : Header) (ht : HeaderTyped h) (tail : List (Key × MP))
    (hn : ∀ k ∈ [Key.snd, .fee, .fv, .lv, .note, .gen, .gh, .grp, .lx, .rekey], valsP k tail = []) :
    decHeader addr (flat (headerPairs h ++ tail)) = (do
      let s ← optA addr h.sender
      let r ← optA addr h.rekeyTo
      some { h with sender := s, rekeyTo := r }) := by
  have e1 := opt_skip (pos := none) (f := addr) (ps := headerPairs h ++ tail) (k := .snd) (a := h.sender) (d := zero32)
    (v := .bin h.sender) (by rw [valsP_append, hn .snd (by simp)]; simp [headerPairs, valsP_append, valsP_skipIf])
  have e2 := opt_skip (pos := none) (f := decUint u64Lim) (ps := headerPairs h ++ tail) (k := .fee) (a := h.fee) (d := 0)
    (v := .uint h.fee) (by rw [valsP_append, hn .fee (by simp)]; simp [headerPairs, valsP_append, valsP_skipIf])
  have e3 := opt_skip (pos := none) (f := decUint u64Lim) (ps := headerPairs h ++ tail) (k := .fv) (a := h.firstValid) (d := 0)
    (v := .uint h.firstValid) (by rw [valsP_append, hn .fv (by simp)]; simp [headerPairs, valsP_append, valsP_skipIf])
  have e4 := opt_skip (pos := none) (f := decUint u64Lim) (ps := headerPairs h ++ tail) (k := .lv) (a := h.lastValid) (d := 0)
    (v := .uint h.lastValid) (by rw [valsP_append, hn .lv (by simp)]; simp [headerPairs, valsP_append, valsP_skipIf])
  have e5 := opt_skip (pos := none) (f := decBytes) (ps := headerPairs h ++ tail) (k := .note) (a := h.note) (d := [])
    (v := bytesArr h.note) (by rw [valsP_append, hn .note (by simp)]; simp [headerPairs, valsP_append, valsP_skipIf])
  have e6 := opt_skip (pos := none) (f := decStr) (ps := headerPairs h ++ tail) (k := .gen) (a := h.genesisId) (d := [])
    (v := .str h.genesisId) (by rw [valsP_append, hn .gen (by simp)]; simp [headerPairs, valsP_append, valsP_skipIf])
  have e7 := opt_skip (pos := none) (f := decArr 32) (ps := headerPairs h ++ tail) (k := .gh) (a := h.genesisHash) (d := zero32)
    (v := bytesArr h.genesisHash)
    (by rw [valsP_append, hn .gh (by simp)]; simp [headerPairs, valsP_append, valsP_skipIf])
  have e8 := opt_skip (pos := none) (f := decArr 32) (ps := headerPairs h ++ tail) (k := .grp) (a := h.group) (d := zero32)
    (v := bytesArr h.group) (by rw [valsP_append, hn .grp (by simp)]; simp [headerPairs, valsP_append, valsP_skipIf])
  have e9 := opt_skip (pos := none) (f := decArr 32) (ps := headerPairs h ++ tail) (k := .lx) (a := h.lease) (d := zero32)
    (v := bytesArr h.lease) (by rw [valsP_append, hn .lx (by simp)]; simp [headerPairs, valsP_append, valsP_skipIf])
  have e10 := opt_skip (pos := none) (f := addr) (ps := headerPairs h ++ tail) (k := .rekey) (a := h.rekeyTo) (d := zero32)
    (v := .bin h.rekeyTo) (by rw [valsP_append, hn .rekey (by simp)]; simp [headerPairs, valsP_append, valsP_skipIf])
  obtain ⟨t1, t2, t3, t4, t5, t6, t7, t8, t9, t10, t11⟩ := ht
  simp only [decUint, t2, t3, t4, decBytes_bytesArr, decArr_bytesArr, decStr, t7, t8, t9, t11, if_true, ite_self] at *
  unfold decHeader
  rw [e1, e2, e3, e4, e5, e6, e7, e8, e9, e10]
  rfl

/-- A required field among the pairs of a transaction. -/
theorem req_body {α : Type} {pos : Option Nat} {k : Key} {f : MP → Option α} {h : Header} {ps : List (Key × MP)} {v : MP}
    (hk : k ∉ [Key.snd, .fee, .fv, .lv, .note, .gen, .gh, .grp, .lx, .rekey]) (hv : valsP k ps = [v]) :
    req pos k f (flat (headerPairs h ++ ps)) = f v :=
  req_one (by rw [valsP_append, header_keys h k hk, hv]; rfl)

theorem opt_body {α : Type} [DecidableEq α] {pos : Option Nat} {k : Key} {f : MP → Option α} {h : Header} {ps : List (Key × MP)} {v : MP}
    {d a : α} (hk : k ∉ [Key.snd, .fee, .fv, .lv, .note, .gen, .gh, .grp, .lx, .rekey])
    (hv : valsP k ps = if decide (a = d) then [] else [v]) :
    opt pos k f d (flat (headerPairs h ++ ps)) = if a = d then some a else f v :=
  opt_skip (by rw [valsP_append, header_keys h k hk, hv]; rfl)

theorem tag_body (f : Fields) : valsP .txType ((.txType, strLit (tagName f)) :: bodyPairs f) = [strLit (tagName f)] := by
  cases f <;> simp [bodyPairs, valsP_append, valsP_cons, valsP_skipIf, valsP_nil]

theorem decOnCompletion_name (o : OnCompletion) : decOnCompletion (strLit (onCompletionName o)) = some o := by
  cases o <;> decide

theorem decCertType_basic : decCertType (strLit basicName) = some () := by decide

theorem decPk_bin (L : Lib) (b : Bytes) (h : b.length = 32) (hv : L.validPk b = true) : decPk L (.bin b) = some b := by
  simp [decPk, h, hv]

theorem decSchema_mp (s : Teal.Schema) (h : s.numUint < u64Lim ∧ s.numByteSlice < u64Lim) :
    decSchema (schemaMP s) = some s := by
  simp [decSchema, schemaMP, decUint, h.1, h.2]

theorem decAssetParams_mp (addr : MP → Option Bytes) (p : AssetParams) (ht : AssetParamsTyped p) :
    decAssetParams addr (assetParamsMP p) = (do
      let a ← addr (.bin p.manager)
      let b ← addr (.bin p.reserve)
      let c ← addr (.bin p.freeze)
      let d ← addr (.bin p.clawback)
      some { p with manager := a, reserve := b, freeze := c, clawback := d }) := by
  obtain ⟨h1, h2, h3, h4, h5, h6, h7, h8, h9, h10, h11, h12, h13⟩ := ht
  simp [decAssetParams, assetParamsMP, decUint, h1, h2, decBool, decStr, decArr_bytesArr, h6, h11, h12, h13]

/-- The reader of the type specific fields for each type. -/
def fieldsBy (L : Lib) (addr : MP → Option Bytes) (kvs : List MP) : Fields → Option Fields
  | .keyreg _ => (decKeyreg L kvs).map .keyreg
  | .payment _ => (decPayment addr kvs).map .payment
  | .assetConfig _ => (decAssetConfig addr kvs).map .assetConfig
  | .assetTransfer _ => (decAssetTransfer addr kvs).map .assetTransfer
  | .assetFreeze _ => (decAssetFreeze addr kvs).map .assetFreeze
  | .appCall _ => (decAppCall addr kvs).map .appCall
  | .compactCert _ => (decCompactCert kvs).map .compactCert

/-- The tag selects the reader of the type specific fields. -/
theorem decFields_of_tag (L : Lib) (addr : MP → Option Bytes) (kvs : List MP) (f : Fields)
    (h : req none .txType decStr kvs = some (asciiBytes (tagName f))) :
    decFields L addr kvs = fieldsBy L addr kvs f := by
  unfold decFields
  rw [h]
  simp only [Option.bind_eq_bind, Option.bind_some]
  cases f <;> simp only [tagName, fieldsBy] <;>
    repeat (first | exact if_pos rfl | exact if_pos trivial | (refine (if_neg ?_).trans ?_; · decide))

theorem decFields_tag (L : Lib) (addr : MP → Option Bytes) (h : Header) (f : Fields) :
    decFields L addr (flat (headerPairs h ++ (.txType, strLit (tagName f)) :: bodyPairs f)) =
      fieldsBy L addr (flat (headerPairs h ++ (.txType, strLit (tagName f)) :: bodyPairs f)) f := by
  apply decFields_of_tag L addr _ f
  rw [req_body (f := decStr) (h := h) (k := .txType) (by decide) (tag_body f)]
  cases f <;> rfl

theorem decFields_keyreg (L : Lib) (addr : MP → Option Bytes) (h : Header) (f : Keyreg) (ht : FieldsTyped L (.keyreg f)) :
    decFields L addr (flat (headerPairs h ++ (.txType, strLit (tagName (.keyreg f))) :: bodyPairs (.keyreg f))) =
      some (.keyreg f) := by
  rw [decFields_tag]
  obtain ⟨h1, h2, h3, h4, h5, h6⟩ := ht
  show (decKeyreg L _).map _ = _
  unfold decKeyreg
  rw [req_body (v := .bin f.votePk) (by decide) (by simp [bodyPairs, valsP_cons, valsP_nil]),
    req_body (v := bytesArr f.selectionPk) (by decide) (by simp [bodyPairs, valsP_cons, valsP_nil]),
    req_body (v := .uint f.voteFirst) (by decide) (by simp [bodyPairs, valsP_cons, valsP_nil]),
    req_body (v := .uint f.voteLast) (by decide) (by simp [bodyPairs, valsP_cons, valsP_nil]),
    req_body (v := .uint f.voteKeyDilution) (by decide) (by simp [bodyPairs, valsP_cons, valsP_nil]),
    req_body (v := .bool f.nonparticipation) (by decide) (by simp [bodyPairs, valsP_cons, valsP_nil])]
  simp [decPk_bin L _ h1 h2, decArr_bytesArr, h3, decUint, h4, h5, h6, decBool]

theorem decFields_payment (L : Lib) (addr : MP → Option Bytes) (h : Header) (f : Payment)
    (ht : FieldsTyped L (.payment f)) (hnil : ∀ a, addr (.bin a) = none ∨ addr (.bin a) = some a) :
    decFields L addr (flat (headerPairs h ++ (.txType, strLit (tagName (.payment f))) :: bodyPairs (.payment f))) =
      if ∀ a ∈ bodyAddrs (.payment f), addr (.bin a) = some a then some (.payment f) else none := by
  rw [decFields_tag]
  obtain ⟨h1, h2, h3⟩ := ht
  show (decPayment addr _).map _ = _
  unfold decPayment
  rw [opt_body (v := .bin f.receiver) (a := f.receiver) (by decide)
      (by simp [bodyPairs, valsP_append, valsP_cons, valsP_skipIf]),
    opt_body (v := .uint f.amount) (a := f.amount) (by decide)
      (by simp [bodyPairs, valsP_append, valsP_cons, valsP_skipIf]),
    opt_body (v := optAddr f.closeRemainderTo) (a := f.closeRemainderTo) (by decide)
      (by simp [bodyPairs, valsP_append, valsP_cons, valsP_skipIf])]
  obtain ⟨rcv, amt, cl⟩ := f
  simp only [decUint, show amt < u64Lim from h2, if_true, ite_self, bodyAddrs]
  by_cases hr : rcv = zero32
  · cases cl with
    | none => simp [hr]
    | some a => rcases hnil a with e | e <;> simp [hr, optAddr, decOpt, e]
  · rcases hnil rcv with e' | e'
    · simp [hr, e']
    · cases cl with
      | none => simp [hr, e']
      | some a => rcases hnil a with e | e <;> simp [hr, optAddr, decOpt, e, e']

theorem decFields_assetConfig (L : Lib) (addr : MP → Option Bytes) (h : Header) (f : AssetConfig)
    (ht : FieldsTyped L (.assetConfig f)) (hnil : ∀ a, addr (.bin a) = none ∨ addr (.bin a) = some a) :
    decFields L addr (flat (headerPairs h ++ (.txType, strLit (tagName (.assetConfig f))) :: bodyPairs (.assetConfig f))) =
      if ∀ a ∈ bodyAddrs (.assetConfig f), addr (.bin a) = some a then some (.assetConfig f) else none := by
  rw [decFields_tag]
  obtain ⟨h1, h2⟩ := ht
  show (decAssetConfig addr _).map _ = _
  unfold decAssetConfig
  rw [req_body (v := .uint f.configAsset) (by decide) (by simp [bodyPairs, valsP_cons, valsP_nil]),
    req_body (v := assetParamsMP f.assetParams) (by decide) (by simp [bodyPairs, valsP_cons, valsP_nil]),
    decAssetParams_mp addr _ h2]
  simp only [decUint, h1, if_true, bodyAddrs]
  rcases hnil f.assetParams.manager with e1 | e1
  · simp [e1]
  rcases hnil f.assetParams.reserve with e2 | e2
  · simp [e1, e2]
  rcases hnil f.assetParams.freeze with e3 | e3
  · simp [e1, e2, e3]
  rcases hnil f.assetParams.clawback with e4 | e4 <;> simp [e1, e2, e3, e4]

theorem decFields_assetTransfer (L : Lib) (addr : MP → Option Bytes) (h : Header) (f : AssetTransfer)
    (ht : FieldsTyped L (.assetTransfer f)) (hnil : ∀ a, addr (.bin a) = none ∨ addr (.bin a) = some a) :
    decFields L addr (flat (headerPairs h ++ (.txType, strLit (tagName (.assetTransfer f))) ::
      bodyPairs (.assetTransfer f))) =
      if ∀ a ∈ bodyAddrs (.assetTransfer f), addr (.bin a) = some a then some (.assetTransfer f) else none := by
  rw [decFields_tag]
  obtain ⟨h1, h2, -⟩ := ht
  show (decAssetTransfer addr _).map _ = _
  unfold decAssetTransfer
  rw [req_body (v := .uint f.transferAsset) (by decide) (by simp [bodyPairs, valsP_cons, valsP_nil]),
    req_body (v := .uint f.assetAmount) (by decide) (by simp [bodyPairs, valsP_cons, valsP_nil]),
    req_body (v := .bin f.assetSender) (by decide) (by simp [bodyPairs, valsP_cons, valsP_nil]),
    req_body (v := .bin f.assetReceiver) (by decide) (by simp [bodyPairs, valsP_cons, valsP_nil]),
    req_body (v := .bin f.assetCloseTo) (by decide) (by simp [bodyPairs, valsP_cons, valsP_nil])]
  simp only [decUint, h1, h2, if_true, bodyAddrs]
  rcases hnil f.assetSender with e1 | e1
  · simp [e1]
  rcases hnil f.assetReceiver with e2 | e2
  · simp [e1, e2]
  rcases hnil f.assetCloseTo with e3 | e3 <;> simp [e1, e2, e3]

theorem decFields_assetFreeze (L : Lib) (addr : MP → Option Bytes) (h : Header) (f : AssetFreeze)
    (ht : FieldsTyped L (.assetFreeze f)) (hnil : ∀ a, addr (.bin a) = none ∨ addr (.bin a) = some a) :
    decFields L addr (flat (headerPairs h ++ (.txType, strLit (tagName (.assetFreeze f))) ::
      bodyPairs (.assetFreeze f))) =
      if ∀ a ∈ bodyAddrs (.assetFreeze f), addr (.bin a) = some a then some (.assetFreeze f) else none := by
  rw [decFields_tag]
  obtain ⟨-, h2⟩ := ht
  show (decAssetFreeze addr _).map _ = _
  unfold decAssetFreeze
  rw [req_body (v := .bin f.freezeAccount) (by decide) (by simp [bodyPairs, valsP_cons, valsP_nil]),
    req_body (v := .uint f.freezeAsset) (by decide) (by simp [bodyPairs, valsP_cons, valsP_nil]),
    req_body (v := .bool f.assetFrozen) (by decide) (by simp [bodyPairs, valsP_cons, valsP_nil])]
  simp only [decUint, h2, if_true, bodyAddrs]
  rcases hnil f.freezeAccount with e1 | e1 <;> simp [e1, decBool]

theorem decVec_addr (addr : MP → Option Bytes) (hnil : ∀ a, addr (.bin a) = none ∨ addr (.bin a) = some a)
    (l : List Bytes) : decVec addr (.arr (l.map .bin)) = if ∀ a ∈ l, addr (.bin a) = some a then some l else none := by
  split
  · exact decVec_map addr _ l (by assumption)
  · rename_i hn
    refine mapM_none addr MP.bin l ?_
    push Not at hn
    obtain ⟨a, ha, h⟩ := hn
    exact ⟨a, ha, (hnil a).resolve_right h⟩

theorem decFields_appCall (L : Lib) (addr : MP → Option Bytes) (h : Header) (f : AppCall)
    (ht : FieldsTyped L (.appCall f)) (hnil : ∀ a, addr (.bin a) = none ∨ addr (.bin a) = some a) :
    decFields L addr (flat (headerPairs h ++ (.txType, strLit (tagName (.appCall f))) :: bodyPairs (.appCall f))) =
      if ∀ a ∈ bodyAddrs (.appCall f), addr (.bin a) = some a then some (.appCall f) else none := by
  rw [decFields_tag]
  obtain ⟨h1, h2, h3, h4, h5, h6, h7, h8, h9, h10⟩ := ht
  show (decAppCall addr _).map _ = _
  unfold decAppCall
  rw [req_body (v := .uint f.applicationId) (by decide) (by simp [bodyPairs, valsP_cons, valsP_nil]),
    req_body (v := strLit (onCompletionName f.onCompletion)) (by decide) (by simp [bodyPairs, valsP_cons, valsP_nil]),
    req_body (v := .arr (f.applicationArgs.map bytesArr)) (by decide) (by simp [bodyPairs, valsP_cons, valsP_nil]),
    req_body (v := .arr (f.accounts.map .bin)) (by decide) (by simp [bodyPairs, valsP_cons, valsP_nil]),
    req_body (v := .arr (f.foreignApps.map .uint)) (by decide) (by simp [bodyPairs, valsP_cons, valsP_nil]),
    req_body (v := .arr (f.foreignAssets.map .uint)) (by decide) (by simp [bodyPairs, valsP_cons, valsP_nil]),
    req_body (v := schemaMP f.localStateSchema) (by decide) (by simp [bodyPairs, valsP_cons, valsP_nil]),
    req_body (v := schemaMP f.globalStateSchema) (by decide) (by simp [bodyPairs, valsP_cons, valsP_nil]),
    req_body (v := bytesArr f.approvalProgram) (by decide) (by simp [bodyPairs, valsP_cons, valsP_nil]),
    req_body (v := bytesArr f.clearStateProgram) (by decide) (by simp [bodyPairs, valsP_cons, valsP_nil]),
    req_body (v := .uint f.extraProgramPages) (by decide) (by simp [bodyPairs, valsP_cons, valsP_nil]),
    decOnCompletion_name, decVec_map decBytes bytesArr _ (fun b _ => decBytes_bytesArr b), decVec_addr addr hnil,
    decVec_map (decUint u64Lim) .uint f.foreignApps (fun b hb => by simp [decUint, h4.2 b hb]),
    decVec_map (decUint u64Lim) .uint f.foreignAssets (fun b hb => by simp [decUint, h5.2 b hb]),
    decSchema_mp _ h6, decSchema_mp _ h7, decBytes_bytesArr, decBytes_bytesArr]
  simp only [decUint, h1, h10, if_true, bodyAddrs]
  by_cases ha : ∀ a ∈ f.accounts, addr (.bin a) = some a
  · simp only [if_pos ha, Option.bind_eq_bind, Option.bind_some, Option.map_some]
    exact (if_pos ha).symm
  · simp only [if_neg ha, Option.bind_eq_bind, Option.bind_some, Option.bind_none, Option.map_none]
    exact (if_neg ha).symm

theorem decFields_compactCert (L : Lib) (addr : MP → Option Bytes) (h : Header) (f : CompactCert)
    (ht : FieldsTyped L (.compactCert f)) :
    decFields L addr (flat (headerPairs h ++ (.txType, strLit (tagName (.compactCert f))) ::
      bodyPairs (.compactCert f))) = some (.compactCert f) := by
  rw [decFields_tag]
  show (decCompactCert _).map _ = _
  unfold decCompactCert
  rw [req_body (v := .uint f.certRound) (by decide) (by simp [bodyPairs, valsP_cons, valsP_nil]),
    req_body (v := strLit basicName) (by decide) (by simp [bodyPairs, valsP_cons, valsP_nil]), decCertType_basic]
  simp [decUint, show f.certRound < u64Lim from ht]

theorem decFields_eq (L : Lib) (addr : MP → Option Bytes) (h : Header) (f : Fields) (ht : FieldsTyped L f)
    (hnil : ∀ a, addr (.bin a) = none ∨ addr (.bin a) = some a) :
    decFields L addr (flat (headerPairs h ++ (.txType, strLit (tagName f)) :: bodyPairs f)) =
      if ∀ a ∈ bodyAddrs f, addr (.bin a) = some a then some f else none := by
  cases f with
  | keyreg f => rw [decFields_keyreg L addr h f ht]; simp [bodyAddrs]
  | payment f => exact decFields_payment L addr h f ht hnil
  | assetConfig f => exact decFields_assetConfig L addr h f ht hnil
  | assetTransfer f => exact decFields_assetTransfer L addr h f ht hnil
  | assetFreeze f => exact decFields_assetFreeze L addr h f ht hnil
  | appCall f => exact decFields_appCall L addr h f ht hnil
  | compactCert f => rw [decFields_compactCert L addr h f ht]; simp [bodyAddrs]

/-- Reading a transaction back succeeds exactly if the reader of addresses accepts every address that was written, and
then gives the transaction. -/
theorem decTxWith_eq (L : Lib) (addr : MP → Option Bytes) (t : Transaction) (ht : TxTyped L t)
    (hnil : ∀ a, addr (.bin a) = none ∨ addr (.bin a) = some a) :
    decTxWith L addr (txMP t) = if ∀ a ∈ txAddrs t, addr (.bin a) = some a then some t else none := by
  rw [txMP, decTxWith, txPairs, checkKeys_flat, decHeader_eq addr t.header ht.header _ (body_no_header t.fields),
    decFields_eq L addr t.header t.fields ht.fields hnil]
  obtain ⟨h, f⟩ := t
  rw [optA_eq addr hnil, optA_eq addr hnil]
  simp only [txAddrs, headerAddrs]
  generalize (if h.sender = zero32 then [] else [h.sender]) = l1
  generalize (if h.rekeyTo = zero32 then [] else [h.rekeyTo]) = l2
  generalize bodyAddrs f = l3
  by_cases h1 : ∀ a ∈ l1, addr (.bin a) = some a
  · by_cases h2 : ∀ a ∈ l2, addr (.bin a) = some a
    · by_cases h3 : ∀ a ∈ l3, addr (.bin a) = some a
      · rw [if_pos h1, if_pos h2, if_pos h3, if_pos]
        · rfl
        · intro a ha
          simp only [List.mem_append] at ha
          rcases ha with (ha | ha) | ha
          · exact h1 a ha
          · exact h2 a ha
          · exact h3 a ha
      · rw [if_pos h1, if_pos h2, if_neg h3,
          if_neg (show ¬ ∀ a ∈ l1 ++ l2 ++ l3, addr (.bin a) = some a from
            fun hc => h3 fun a ha => hc a (by simp [ha]))]
        rfl
    · rw [if_pos h1, if_neg h2, if_neg (show ¬ ∀ a ∈ l1 ++ l2 ++ l3, addr (.bin a) = some a from
        fun hc => h2 fun a ha => hc a (by simp [ha]))]
      rfl
  · rw [if_neg h1, if_neg (show ¬ ∀ a ∈ l1 ++ l2 ++ l3, addr (.bin a) = some a from
      fun hc => h1 fun a ha => hc a (by simp [ha]))]
    rfl

end Verif.Codec
