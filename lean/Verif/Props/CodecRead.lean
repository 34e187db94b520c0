import Verif.Props.Msgpack
import Verif.Props.Utf8
import Verif.Lemmas.CodecFits
import Mathlib.Data.List.Forall2
/-!
# C118: what the reader of transactions accepts

The specification says which values stand for which fields, under which names, without reference to the reader: every
field at most once, required fields exactly once, integers in the range of their type, arrays of the exact length, one
of the seven transaction types. Fields of structs may also be given by their positions. Entries with other names or
positions are ignored; other kinds of keys are not allowed.
-/

namespace Verif.Props
open Verif Verif.Msgpack Verif.Codec Verif.Tx Verif.Multisig Verif.HashId

/-- The bytes of an ASCII text. -/
def textBytes (s : List Char) : Bytes := s.map fun c => UInt8.ofNat c.toNat

/-- The entries of a map. -/
def mapPairs : List MP → List (MP × MP)
  | k :: v :: rest => (k, v) :: mapPairs rest
  | _ => []

/-- The value is a text (written as a string or as bytes). -/
def IsText (s : Bytes) (v : MP) : Prop := v = .str s ∨ v = .bin s

/-- The key of the field with this name, which may also be given by the position of the field, if it has one. -/
def IsKey (pos : Option Nat) (name : List Char) (key : MP) : Prop :=
  IsText (textBytes name) key ∨ ∃ n, pos = some n ∧ key = .uint n

/-- Every key is a text or a position. -/
def KeysOk (kvs : List MP) : Prop := ∀ e ∈ mapPairs kvs, (∃ s, IsText s e.1) ∨ ∃ n, e.1 = .uint n

/-- No entry is for this field. -/
def Absent (kvs : List MP) (pos : Option Nat) (name : List Char) : Prop := ∀ e ∈ mapPairs kvs, ¬ IsKey pos name e.1

/-- Exactly one entry is for this field, and it has this value. -/
def Given (kvs : List MP) (pos : Option Nat) (name : List Char) (v : MP) : Prop :=
  ∃ a k b, mapPairs kvs = a ++ (k, v) :: b ∧ IsKey pos name k ∧ ∀ e ∈ a ++ b, ¬ IsKey pos name e.1

/-- A field that must be there. -/
def Required (kvs : List MP) (pos : Option Nat) (name : List Char) (P : MP → Prop) : Prop := ∃ v, Given kvs pos name v ∧ P v

/-- A field that may be left out, and then has its default value. -/
def Optional (kvs : List MP) (pos : Option Nat) (name : List Char) (isDefault : Prop) (P : MP → Prop) : Prop :=
  (Absent kvs pos name ∧ isDefault) ∨ ∃ v, Given kvs pos name v ∧ P v

/-- An integer below a bound. -/
def IsUint (lim n : Nat) (v : MP) : Prop := v = .uint n ∧ n < lim

/-- A truth value. -/
def IsBool (b : Bool) (v : MP) : Prop := v = .bool b

/-- A text of Unicode characters. -/
def IsString (s : Bytes) (v : MP) : Prop := IsText s v ∧ IsUtf8 s

/-- A list of elements. -/
def IsList {α : Type} (P : α → MP → Prop) (xs : List α) (v : MP) : Prop := ∃ vs, v = .arr vs ∧ List.Forall₂ P xs vs

/-- Bytes, as a list of integers. -/
def IsBytes (b : Bytes) (v : MP) : Prop := v = .arr (b.map fun x => .uint x.toNat)

/-- A known number of bytes, as a list of integers. -/
def IsArray (n : Nat) (b : Bytes) (v : MP) : Prop := IsBytes b v ∧ b.length = n

/-- Nothing, or an element. -/
def IsOption {α : Type} (P : α → MP → Prop) : Option α → MP → Prop
  | none, v => v = .nil
  | some x, v => v ≠ .nil ∧ P x v

/-- A public key: 32 bytes in any form, and one the library accepts. -/
def IsPk (L : Lib) (b : Bytes) (v : MP) : Prop :=
  (IsText b v ∨ IsBytes b v) ∧ b.length = 32 ∧ L.validPk b = true

/-- A signature: 64 bytes the library accepts. -/
def IsSig (L : Lib) (b : Bytes) (v : MP) : Prop := IsArray 64 b v ∧ L.validSig b = true

/-- The common fields of a transaction; `A` says how an address is written. -/
def ReadsHeader (A : Bytes → MP → Prop) (kvs : List MP) (h : Header) : Prop :=
  Optional kvs none ['s', 'n', 'd'] (h.sender = List.replicate 32 0) (A h.sender) ∧
  Optional kvs none ['f', 'e', 'e'] (h.fee = 0) (IsUint (2 ^ 64) h.fee) ∧
  Optional kvs none ['f', 'v'] (h.firstValid = 0) (IsUint (2 ^ 64) h.firstValid) ∧
  Optional kvs none ['l', 'v'] (h.lastValid = 0) (IsUint (2 ^ 64) h.lastValid) ∧
  Optional kvs none ['n', 'o', 't', 'e'] (h.note = []) (IsBytes h.note) ∧
  Optional kvs none ['g', 'e', 'n'] (h.genesisId = []) (IsString h.genesisId) ∧
  Optional kvs none ['g', 'h'] (h.genesisHash = List.replicate 32 0) (IsArray 32 h.genesisHash) ∧
  Optional kvs none ['g', 'r', 'p'] (h.group = List.replicate 32 0) (IsArray 32 h.group) ∧
  Optional kvs none ['l', 'x'] (h.lease = List.replicate 32 0) (IsArray 32 h.lease) ∧
  Optional kvs none ['r', 'e', 'k', 'e', 'y'] (h.rekeyTo = List.replicate 32 0) (A h.rekeyTo)

/-- The limits on global or local state: two values in order, or two named values. -/
def IsSchema (s : Teal.Schema) (v : MP) : Prop :=
  (∃ a b, v = .arr [a, b] ∧ IsUint (2 ^ 64) s.numUint a ∧ IsUint (2 ^ 64) s.numByteSlice b) ∨
  (∃ kvs, v = .map kvs ∧ KeysOk kvs ∧
    Required kvs (some 0) ['n', 'u', 'm', '_', 'u', 'i', 'n', 't'] (IsUint (2 ^ 64) s.numUint) ∧
    Required kvs (some 1) ['n', 'u', 'm', '_', 'b', 'y', 't', 'e', '_', 's', 'l', 'i', 'c', 'e'] (IsUint (2 ^ 64) s.numByteSlice))

/-- The parameters of an asset: eleven values in this order, or eleven named values. -/
def IsAssetParams (A : Bytes → MP → Prop) (p : AssetParams) (v : MP) : Prop :=
  (∃ a b c d e f g h i j k, v = .arr [a, b, c, d, e, f, g, h, i, j, k] ∧
    IsUint (2 ^ 64) p.total a ∧ IsUint (2 ^ 32) p.decimals b ∧ IsBool p.defaultFrozen c ∧ IsString p.unitName d ∧
    IsString p.assetName e ∧ IsString p.url f ∧ IsArray 32 p.metadataHash g ∧ A p.manager h ∧
    A p.reserve i ∧ A p.freeze j ∧ A p.clawback k) ∨
  (∃ kvs, v = .map kvs ∧ KeysOk kvs ∧
    Required kvs (some 0) ['t', 'o', 't', 'a', 'l'] (IsUint (2 ^ 64) p.total) ∧
    Required kvs (some 1) ['d', 'e', 'c', 'i', 'm', 'a', 'l', 's'] (IsUint (2 ^ 32) p.decimals) ∧
    Required kvs (some 2) ['d', 'e', 'f', 'a', 'u', 'l', 't', '_', 'f', 'r', 'o', 'z', 'e', 'n'] (IsBool p.defaultFrozen) ∧
    Required kvs (some 3) ['u', 'n', 'i', 't', '_', 'n', 'a', 'm', 'e'] (IsString p.unitName) ∧
    Required kvs (some 4) ['a', 's', 's', 'e', 't', '_', 'n', 'a', 'm', 'e'] (IsString p.assetName) ∧
    Required kvs (some 5) ['u', 'r', 'l'] (IsString p.url) ∧
    Required kvs (some 6) ['m', 'e', 't', 'a', 'd', 'a', 't', 'a', '_', 'h', 'a', 's', 'h'] (IsArray 32 p.metadataHash) ∧
    Required kvs (some 7) ['m', 'a', 'n', 'a', 'g', 'e', 'r'] (A p.manager) ∧
    Required kvs (some 8) ['r', 'e', 's', 'e', 'r', 'v', 'e'] (A p.reserve) ∧
    Required kvs (some 9) ['f', 'r', 'e', 'e', 'z', 'e'] (A p.freeze) ∧
    Required kvs (some 10) ['c', 'l', 'a', 'w', 'b', 'a', 'c', 'k'] (A p.clawback))

/-- The action of an application call. -/
def IsOnCompletion : OnCompletion → MP → Prop
  | .noOp, v => v = .str (textBytes ['N', 'o', 'O', 'p', 'O', 'C'])
  | .optIn, v => v = .str (textBytes ['O', 'p', 't', 'I', 'n', 'O', 'C'])
  | .closeOut, v => v = .str (textBytes ['C', 'l', 'o', 's', 'e', 'O', 'u', 't', 'O', 'C'])
  | .clearState, v => v = .str (textBytes ['C', 'l', 'e', 'a', 'r', 'S', 't', 'a', 't', 'e', 'O', 'C'])
  | .updateApplication, v =>
    v = .str (textBytes ['U', 'p', 'd', 'a', 't', 'e', 'A', 'p', 'p', 'l', 'i', 'c', 'a', 't', 'i', 'o', 'n', 'O', 'C'])
  | .deleteApplication, v =>
    v = .str (textBytes ['D', 'e', 'l', 'e', 't', 'e', 'A', 'p', 'p', 'l', 'i', 'c', 'a', 't', 'i', 'o', 'n', 'O', 'C'])

/-- The type and the fields specific to it. -/
def ReadsFields (L : Lib) (A : Bytes → MP → Prop) (kvs : List MP) : Fields → Prop
  | .keyreg f =>
    Required kvs none ['t', 'y', 'p', 'e'] (IsText (textBytes ['k', 'e', 'y', 'r', 'e', 'g'])) ∧
    Required kvs (some 0) ['v', 'o', 't', 'e', '_', 'p', 'k'] (IsPk L f.votePk) ∧
    Required kvs (some 1) ['s', 'e', 'l', 'e', 'c', 't', 'i', 'o', 'n', '_', 'p', 'k'] (IsArray 32 f.selectionPk) ∧
    Required kvs (some 2) ['v', 'o', 't', 'e', '_', 'f', 'i', 'r', 's', 't'] (IsUint (2 ^ 64) f.voteFirst) ∧
    Required kvs (some 3) ['v', 'o', 't', 'e', '_', 'l', 'a', 's', 't'] (IsUint (2 ^ 64) f.voteLast) ∧
    Required kvs (some 4) ['v', 'o', 't', 'e', '_', 'k', 'e', 'y', '_', 'd', 'i', 'l', 'u', 't', 'i', 'o', 'n']
      (IsUint (2 ^ 64) f.voteKeyDilution) ∧
    Required kvs (some 5) ['n', 'o', 'n', 'p', 'a', 'r', 't', 'i', 'c', 'i', 'p', 'a', 't', 'i', 'o', 'n']
      (IsBool f.nonparticipation)
  | .payment f =>
    Required kvs none ['t', 'y', 'p', 'e'] (IsText (textBytes ['p', 'a', 'y'])) ∧
    Optional kvs (some 0) ['r', 'c', 'v'] (f.receiver = List.replicate 32 0) (A f.receiver) ∧
    Optional kvs (some 1) ['a', 'm', 't'] (f.amount = 0) (IsUint (2 ^ 64) f.amount) ∧
    Optional kvs (some 2) ['c', 'l', 'o', 's', 'e'] (f.closeRemainderTo = none) (IsOption A f.closeRemainderTo)
  | .assetConfig f =>
    Required kvs none ['t', 'y', 'p', 'e'] (IsText (textBytes ['a', 'c', 'f', 'g'])) ∧
    Required kvs (some 0) ['c', 'o', 'n', 'f', 'i', 'g', '_', 'a', 's', 's', 'e', 't'] (IsUint (2 ^ 64) f.configAsset) ∧
    Required kvs (some 1) ['a', 's', 's', 'e', 't', '_', 'p', 'a', 'r', 'a', 'm', 's'] (IsAssetParams A f.assetParams)
  | .assetTransfer f =>
    Required kvs none ['t', 'y', 'p', 'e'] (IsText (textBytes ['a', 'x', 'f', 'e', 'r'])) ∧
    Required kvs (some 0) ['t', 'r', 'a', 'n', 's', 'f', 'e', 'r', '_', 'a', 's', 's', 'e', 't'] (IsUint (2 ^ 64) f.transferAsset) ∧
    Required kvs (some 1) ['a', 's', 's', 'e', 't', '_', 'a', 'm', 'o', 'u', 'n', 't'] (IsUint (2 ^ 64) f.assetAmount) ∧
    Required kvs (some 2) ['a', 's', 's', 'e', 't', '_', 's', 'e', 'n', 'd', 'e', 'r'] (A f.assetSender) ∧
    Required kvs (some 3) ['a', 's', 's', 'e', 't', '_', 'r', 'e', 'c', 'e', 'i', 'v', 'e', 'r'] (A f.assetReceiver) ∧
    Required kvs (some 4) ['a', 's', 's', 'e', 't', '_', 'c', 'l', 'o', 's', 'e', '_', 't', 'o'] (A f.assetCloseTo)
  | .assetFreeze f =>
    Required kvs none ['t', 'y', 'p', 'e'] (IsText (textBytes ['a', 'f', 'r', 'z'])) ∧
    Required kvs (some 0) ['f', 'r', 'e', 'e', 'z', 'e', '_', 'a', 'c', 'c', 'o', 'u', 'n', 't'] (A f.freezeAccount) ∧
    Required kvs (some 1) ['f', 'r', 'e', 'e', 'z', 'e', '_', 'a', 's', 's', 'e', 't'] (IsUint (2 ^ 64) f.freezeAsset) ∧
    Required kvs (some 2) ['a', 's', 's', 'e', 't', '_', 'f', 'r', 'o', 'z', 'e', 'n'] (IsBool f.assetFrozen)
  | .appCall f =>
    Required kvs none ['t', 'y', 'p', 'e'] (IsText (textBytes ['a', 'p', 'p', 'l'])) ∧
    Required kvs (some 0) ['a', 'p', 'p', 'l', 'i', 'c', 'a', 't', 'i', 'o', 'n', '_', 'i', 'd'] (IsUint (2 ^ 64) f.applicationId) ∧
    Required kvs (some 1) ['o', 'n', '_', 'c', 'o', 'm', 'p', 'l', 'e', 't', 'i', 'o', 'n'] (IsOnCompletion f.onCompletion) ∧
    Required kvs (some 2) ['a', 'p', 'p', 'l', 'i', 'c', 'a', 't', 'i', 'o', 'n', '_', 'a', 'r', 'g', 's']
      (IsList IsBytes f.applicationArgs) ∧
    Required kvs (some 3) ['a', 'c', 'c', 'o', 'u', 'n', 't', 's'] (IsList A f.accounts) ∧
    Required kvs (some 4) ['f', 'o', 'r', 'e', 'i', 'g', 'n', '_', 'a', 'p', 'p', 's'] (IsList (IsUint (2 ^ 64)) f.foreignApps) ∧
    Required kvs (some 5) ['f', 'o', 'r', 'e', 'i', 'g', 'n', '_', 'a', 's', 's', 'e', 't', 's']
      (IsList (IsUint (2 ^ 64)) f.foreignAssets) ∧
    Required kvs (some 6) ['l', 'o', 'c', 'a', 'l', '_', 's', 't', 'a', 't', 'e', '_', 's', 'c', 'h', 'e', 'm', 'a']
      (IsSchema f.localStateSchema) ∧
    Required kvs (some 7) ['g', 'l', 'o', 'b', 'a', 'l', '_', 's', 't', 'a', 't', 'e', '_', 's', 'c', 'h', 'e', 'm', 'a']
      (IsSchema f.globalStateSchema) ∧
    Required kvs (some 8) ['a', 'p', 'p', 'r', 'o', 'v', 'a', 'l', '_', 'p', 'r', 'o', 'g', 'r', 'a', 'm']
      (IsBytes f.approvalProgram) ∧
    Required kvs (some 9) ['c', 'l', 'e', 'a', 'r', '_', 's', 't', 'a', 't', 'e', '_', 'p', 'r', 'o', 'g', 'r', 'a', 'm']
      (IsBytes f.clearStateProgram) ∧
    Required kvs (some 10) ['e', 'x', 't', 'r', 'a', '_', 'p', 'r', 'o', 'g', 'r', 'a', 'm', '_', 'p', 'a', 'g', 'e', 's']
      (IsUint (2 ^ 32) f.extraProgramPages)
  | .compactCert f =>
    Required kvs none ['t', 'y', 'p', 'e'] (IsText (textBytes ['c', 'e', 'r', 't'])) ∧
    Required kvs (some 0) ['c', 'e', 'r', 't', '_', 'r', 'o', 'u', 'n', 'd'] (IsUint (2 ^ 64) f.certRound) ∧
    Required kvs (some 1) ['c', 'e', 'r', 't', '_', 't', 'y', 'p', 'e'] (· = .str (textBytes ['B', 'a', 's', 'i', 'c']))

/-- The value stands for the transaction, if addresses are written as `A` says. -/
def ReadsTx (L : Lib) (A : Bytes → MP → Prop) (t : Transaction) (v : MP) : Prop :=
  ∃ kvs, v = .map kvs ∧ KeysOk kvs ∧ ReadsHeader A kvs t.header ∧ ReadsFields L A kvs t.fields

/-- A signer of a multisignature and the signature, if any: two values in order, or named values. -/
def IsSubsig (L : Lib) (s : Subsig) (v : MP) : Prop :=
  (∃ a b, v = .arr [a, b] ∧ IsPk L s.key a ∧ IsOption (IsSig L) s.sig b) ∨
  (∃ kvs, v = .map kvs ∧ KeysOk kvs ∧ Required kvs (some 0) ['k', 'e', 'y'] (IsPk L s.key) ∧
    Optional kvs (some 1) ['s', 'i', 'g'] (s.sig = none) (IsOption (IsSig L) s.sig))

/-- A byte, written as an integer. -/
def IsByte (b : UInt8) (v : MP) : Prop := v = .uint b.toNat

/-- A multisignature: three values in order, or three named values. -/
def IsMsig (L : Lib) (m : Msig) (v : MP) : Prop :=
  (∃ a b c, v = .arr [a, b, c] ∧ IsByte m.version a ∧ IsByte m.threshold b ∧ IsList (IsSubsig L) m.subsigs c) ∨
  (∃ kvs, v = .map kvs ∧ KeysOk kvs ∧
    Required kvs (some 0) ['v', 'e', 'r', 's', 'i', 'o', 'n'] (IsByte m.version) ∧
    Required kvs (some 1) ['t', 'h', 'r', 'e', 's', 'h', 'o', 'l', 'd'] (IsByte m.threshold) ∧
    Required kvs (some 2) ['s', 'u', 'b', 's', 'i', 'g', 's'] (IsList (IsSubsig L) m.subsigs))

/-- A logic signature: four values in order, or four named values. -/
def IsLsig (L : Lib) (l : LogicSig) (v : MP) : Prop :=
  (∃ a b c d, v = .arr [a, b, c, d] ∧ IsBytes l.logic a ∧ IsSig L l.sig b ∧ IsMsig L l.msig c ∧
    IsList IsBytes l.args d) ∨
  (∃ kvs, v = .map kvs ∧ KeysOk kvs ∧
    Required kvs (some 0) ['l', 'o', 'g', 'i', 'c'] (IsBytes l.logic) ∧ Required kvs (some 1) ['s', 'i', 'g'] (IsSig L l.sig) ∧
    Required kvs (some 2) ['m', 's', 'i', 'g'] (IsMsig L l.msig) ∧ Required kvs (some 3) ['a', 'r', 'g', 's'] (IsList IsBytes l.args))

/-- An authorizing address: 32 integers, or 32 bytes if the library hands them out one by one. -/
def IsAuth (L : Lib) (b : Bytes) (v : MP) : Prop :=
  IsArray 32 b v ∨ (L.binAsSeq = true ∧ v = .bin b ∧ b.length = 32)

/-- The value stands for the signed transaction: four values, and an authorizing address if it is not the zero one; or
the same under their names. -/
def ReadsStx (L : Lib) (s : SignedTx) (v : MP) : Prop :=
  (∃ a b c d e, v = .arr (a :: b :: c :: d :: e) ∧ IsSig L s.sig a ∧ IsOption (IsMsig L) s.msig b ∧
    IsOption (IsLsig L) s.lsig c ∧ ReadsTx L (IsArray 32) s.tx d ∧
    ((e = [] ∧ s.authAddr = List.replicate 32 0) ∨ ∃ w, e = [w] ∧ IsAuth L s.authAddr w)) ∨
  (∃ kvs, v = .map kvs ∧ KeysOk kvs ∧ Required kvs (some 0) ['s', 'i', 'g'] (IsSig L s.sig) ∧
    Optional kvs (some 1) ['m', 's', 'i', 'g'] (s.msig = none) (IsOption (IsMsig L) s.msig) ∧
    Optional kvs (some 2) ['l', 's', 'i', 'g'] (s.lsig = none) (IsOption (IsLsig L) s.lsig) ∧
    Required kvs (some 3) ['t', 'x'] (ReadsTx L (IsArray 32) s.tx) ∧
    Optional kvs (some 4) ['a', 'u', 't', 'h', '_', 'a', 'd', 'd', 'r'] (s.authAddr = List.replicate 32 0) (IsAuth L s.authAddr))

/-! ## The reader meets the specification -/

theorem filter_one {α : Type} (p : α → Bool) (l : List α) (x : α) :
    l.filter p = [x] ↔ ∃ a b, l = a ++ x :: b ∧ p x = true ∧ ∀ y ∈ a ++ b, ¬ p y = true := by
  constructor
  · intro h
    induction l with
    | nil => cases h
    | cons y l ih =>
      rw [List.filter_cons] at h
      split at h
      · rename_i hy
        injection h with h1 h2
        subst h1
        refine ⟨[], l, rfl, hy, fun z hz => ?_⟩
        exact List.filter_eq_nil_iff.1 h2 z hz
      · rename_i hy
        obtain ⟨a, b, e, hx, hr⟩ := ih h
        refine ⟨y :: a, b, by rw [e]; rfl, hx, fun z hz => ?_⟩
        rw [List.cons_append, List.mem_cons] at hz
        rcases hz with rfl | hz
        · exact hy
        · exact hr z hz
  · rintro ⟨a, b, rfl, hx, hr⟩
    rw [List.filter_append, List.filter_cons, if_pos hx,
      List.filter_eq_nil_iff.2 (fun z hz => hr z (List.mem_append_left _ hz)),
      List.filter_eq_nil_iff.2 (fun z hz => hr z (List.mem_append_right _ hz))]
    rfl

theorem textBytes_eq (k : Key) : textBytes k.chars = k.bytes := rfl

theorem keyBytes_iff (k : MP) (s : Bytes) : keyBytes k = some s ↔ IsText s k := by
  cases k <;> simp [keyBytes, IsText]

theorem isKey_iff (pos : Option Nat) (n : List Char) (key : MP) :
    isKey pos (textBytes n) key = true ↔ IsKey pos n key := by
  rw [IsKey, ← keyBytes_iff]
  cases key <;> simp [isKey, keyBytes]

theorem checkKeys_iff : ∀ (kvs : List MP) (u : Unit), checkKeys kvs = some u ↔ KeysOk kvs
  | [], u => by simp [checkKeys, KeysOk, mapPairs]
  | [_], u => by simp [checkKeys, KeysOk, mapPairs]
  | key :: v :: rest, u => by
    have hk : keyOk key = true ↔ (∃ s, IsText s key) ∨ ∃ n, key = .uint n := by
      cases key <;> simp [keyOk, keyBytes, IsText]
    have ih := checkKeys_iff rest u
    rw [checkKeys, KeysOk, mapPairs, List.forall_mem_cons]
    rw [KeysOk] at ih
    rw [← hk, ← ih]
    by_cases h : keyOk key = true <;> simp [h]

theorem vals_eq (pos : Option Nat) (k : Key) : ∀ kvs : List MP,
    vals pos k kvs = ((mapPairs kvs).filter (fun e => isKey pos (textBytes k.chars) e.1)).map Prod.snd
  | [] => rfl
  | [_] => rfl
  | key :: v :: rest => by
    rw [vals, mapPairs, List.filter_cons, vals_eq pos k rest, textBytes_eq]
    by_cases h : isKey pos k.bytes key = true <;> simp [h]

theorem filter_key_nil (pos : Option Nat) (n : List Char) (kvs : List MP) :
    ((mapPairs kvs).filter (fun e => isKey pos (textBytes n) e.1)).map Prod.snd = [] ↔ Absent kvs pos n := by
  rw [List.map_eq_nil_iff, List.filter_eq_nil_iff, Absent]
  simp only [isKey_iff]

theorem filter_key_one (pos : Option Nat) (n : List Char) (kvs : List MP) (v : MP) :
    ((mapPairs kvs).filter (fun e => isKey pos (textBytes n) e.1)).map Prod.snd = [v] ↔ Given kvs pos n v := by
  rw [Given]
  constructor
  · intro h
    rw [List.map_eq_cons_iff] at h
    obtain ⟨⟨key, v'⟩, t, h1, h2, h3⟩ := h
    rw [List.map_eq_nil_iff] at h3
    subst h3
    simp only at h2
    subst h2
    obtain ⟨a, b, e, hx, hr⟩ := (filter_one _ _ _).1 h1
    simp only [isKey_iff] at hx hr
    exact ⟨a, key, b, e, hx, hr⟩
  · rintro ⟨a, key, b, e, hx, hr⟩
    rw [(filter_one _ _ (key, v)).2 ⟨a, b, e, by simpa [isKey_iff] using hx, by simpa [isKey_iff] using hr⟩]
    rfl

theorem vals_nil_iff (pos : Option Nat) (k : Key) (kvs : List MP) : vals pos k kvs = [] ↔ Absent kvs pos k.chars := by
  rw [vals_eq, filter_key_nil]

theorem vals_one_iff (pos : Option Nat) (k : Key) (kvs : List MP) (v : MP) :
    vals pos k kvs = [v] ↔ Given kvs pos k.chars v := by
  rw [vals_eq, filter_key_one]

theorem req_iff {α : Type} {f : MP → Option α} {P : α → MP → Prop} (hf : ∀ v x, f v = some x ↔ P x v)
    (pos : Option Nat) (k : Key) (kvs : List MP) (x : α) : req pos k f kvs = some x ↔ Required kvs pos k.chars (P x) := by
  rw [req, Required]
  constructor
  · intro h
    split at h
    · rename_i v hv; exact ⟨v, (vals_one_iff _ _ _ _).1 hv, (hf _ _).1 h⟩
    · cases h
  · rintro ⟨v, h1, h2⟩
    rw [(vals_one_iff _ _ _ _).2 h1]
    exact (hf _ _).2 h2

theorem opt_iff {α : Type} {f : MP → Option α} {P : α → MP → Prop} (hf : ∀ v x, f v = some x ↔ P x v)
    (pos : Option Nat) (k : Key) (d : α) (kvs : List MP) (x : α) :
    opt pos k f d kvs = some x ↔ Optional kvs pos k.chars (x = d) (P x) := by
  rw [opt, Optional]
  constructor
  · intro h
    split at h
    · rename_i hv
      injection h with h
      exact .inl ⟨(vals_nil_iff _ _ _).1 hv, h.symm⟩
    · rename_i v hv; exact .inr ⟨v, (vals_one_iff _ _ _ _).1 hv, (hf _ _).1 h⟩
    · cases h
  · rintro (⟨h1, h2⟩ | ⟨v, h1, h2⟩)
    · rw [(vals_nil_iff _ _ _).2 h1, h2]
    · rw [(vals_one_iff _ _ _ _).2 h1]
      exact (hf _ _).2 h2

theorem decUint_iff (lim : Nat) (v : MP) (x : Nat) : decUint lim v = some x ↔ IsUint lim x v := by
  cases v with
  | uint n =>
    rw [decUint, IsUint]
    by_cases h : n < lim
    · rw [if_pos h]
      constructor
      · intro e; injection e with e; subst e; exact ⟨rfl, h⟩
      · rintro ⟨e, _⟩; injection e with e; rw [e]
    · rw [if_neg h]
      constructor
      · intro e; cases e
      · rintro ⟨e, h2⟩; injection e with e; subst e; exact absurd h2 h
  | _ => simp [decUint, IsUint]

theorem decBool_iff (v : MP) (x : Bool) : decBool v = some x ↔ IsBool x v := by
  cases v <;> simp [decBool, IsBool]

theorem decStr_iff (v : MP) (x : Bytes) : decStr v = some x ↔ IsString x v := by
  rw [IsString, ← utf8_iff]
  have key : ∀ s : Bytes, (if utf8 s then some s else none) = some x ↔ s = x ∧ utf8 x = true := by
    intro s
    by_cases h : utf8 s = true
    · rw [if_pos h]
      constructor
      · intro e; injection e with e; subst e; exact ⟨rfl, h⟩
      · intro e; rw [e.1]
    · rw [if_neg h]
      constructor
      · intro e; cases e
      · intro e; exact absurd (e.1 ▸ e.2) h
  cases v <;> simp [decStr, IsText, key]

theorem decByte_iff (v : MP) (x : UInt8) : decByte v = some x ↔ IsByte x v := by
  cases v with
  | uint n =>
    rw [decByte, IsByte]
    by_cases h : n < 256
    · rw [if_pos h]
      constructor
      · intro e; injection e with e; subst e; rw [ofNat_toNat n h]
      · intro e; injection e with e; subst e; rw [UInt8.ofNat_toNat]
    · rw [if_neg h]
      constructor
      · intro e; cases e
      · intro e; injection e with e; subst e; exact absurd x.toNat_lt h
  | _ => simp [decByte, IsByte]

theorem mapM_iff {α : Type} {f : MP → Option α} {P : α → MP → Prop} (hf : ∀ v x, f v = some x ↔ P x v)
    (l : List MP) (xs : List α) : l.mapM f = some xs ↔ List.Forall₂ P xs l := by
  induction l generalizing xs with
  | nil =>
    rw [List.mapM_nil]
    constructor
    · intro h; cases h; exact .nil
    · intro h; cases h; rfl
  | cons v l ih =>
    rw [List.mapM_cons]
    cases hv : f v with
    | none =>
      constructor
      · intro h; cases h
      · intro h
        cases h with
        | cons h1 _ => rw [← hf, hv] at h1; cases h1
    | some y =>
      cases hl : l.mapM f with
      | none =>
        constructor
        · intro h; cases h
        · intro h
          cases h with
          | cons _ h2 => rw [← ih, hl] at h2; cases h2
      | some ys =>
        constructor
        · intro h
          injection h with h
          subst h
          exact .cons ((hf _ _).1 hv) ((ih _).1 hl)
        · intro h
          cases h with
          | cons h1 h2 =>
            rw [← hf, hv] at h1
            rw [← ih, hl] at h2
            injection h1 with h1
            injection h2 with h2
            subst h1 h2
            rfl

theorem decVec_iff {α : Type} {f : MP → Option α} {P : α → MP → Prop} (hf : ∀ v x, f v = some x ↔ P x v)
    (v : MP) (xs : List α) : decVec f v = some xs ↔ IsList P xs v := by
  cases v with
  | arr l =>
    rw [decVec, mapM_iff hf, IsList]
    constructor
    · intro h; exact ⟨l, rfl, h⟩
    · rintro ⟨vs, e, h⟩; injection e with e; subst e; exact h
  | _ => simp [decVec, IsList]

theorem isList_byte (b : Bytes) (v : MP) : IsList IsByte b v ↔ IsBytes b v := by
  rw [IsList, IsBytes]
  have key : ∀ (b : Bytes) (vs : List MP), List.Forall₂ IsByte b vs ↔ vs = b.map fun x => .uint x.toNat := by
    intro b
    induction b with
    | nil =>
      intro vs
      constructor
      · intro h; cases h; rfl
      · intro h; subst h; exact .nil
    | cons x b ih =>
      intro vs
      constructor
      · intro h
        cases h with
        | cons h1 h2 => rw [(ih _).1 h2, h1]; rfl
      · intro h; subst h; exact .cons rfl ((ih _).2 rfl)
  constructor
  · rintro ⟨vs, e, h⟩; rw [e, (key _ _).1 h]
  · intro e; exact ⟨_, e, (key _ _).2 rfl⟩

theorem decBytes_iff (v : MP) (b : Bytes) : decBytes v = some b ↔ IsBytes b v :=
  (decVec_iff decByte_iff v b).trans (isList_byte b v)

theorem decArr_iff (n : Nat) (v : MP) (b : Bytes) : decArr n v = some b ↔ IsArray n b v := by
  rw [decArr, IsArray]
  cases h : decBytes v with
  | none =>
    constructor
    · intro e; cases e
    · rintro ⟨h1, _⟩; rw [← decBytes_iff, h] at h1; cases h1
  | some c =>
    change (if c.length = n then some c else none) = some b ↔ _
    constructor
    · intro e
      split at e
      · rename_i hl; injection e with e; subst e; exact ⟨(decBytes_iff _ _).1 h, hl⟩
      · cases e
    · rintro ⟨h1, h2⟩
      rw [← decBytes_iff, h] at h1
      injection h1 with h1
      subst h1
      rw [if_pos h2]

theorem decOpt_iff {α : Type} {f : MP → Option α} {P : α → MP → Prop} (hf : ∀ v x, f v = some x ↔ P x v)
    (v : MP) (o : Option α) : decOpt f v = some o ↔ IsOption P o v := by
  have key : ∀ v : MP, v ≠ .nil → ((f v).map some = some o ↔ IsOption P o v) := by
    intro v hv
    cases o with
    | none =>
      rw [IsOption]
      constructor
      · intro h
        rw [Option.map_eq_some_iff] at h
        obtain ⟨_, _, h⟩ := h
        cases h
      · intro h; exact absurd h hv
    | some x =>
      rw [IsOption, Option.map_eq_some_iff]
      constructor
      · rintro ⟨a, h1, h2⟩
        injection h2 with h2
        subst h2
        exact ⟨hv, (hf _ _).1 h1⟩
      · rintro ⟨_, h⟩; exact ⟨x, (hf _ _).2 h, rfl⟩
  cases v with
  | nil =>
    rw [decOpt]
    cases o <;> simp [IsOption]
  | _ => exact key _ (by simp)

theorem decPk_iff (L : Lib) (v : MP) (b : Bytes) : decPk L v = some b ↔ IsPk L b v := by
  have key : ∀ o : Option Bytes, (o.bind fun c => if c.length = 32 ∧ L.validPk c = true then some c else none) = some b ↔
      o = some b ∧ b.length = 32 ∧ L.validPk b = true := by
    intro o
    cases o with
    | none => simp
    | some c =>
      change (if c.length = 32 ∧ L.validPk c = true then some c else none) = some b ↔ _
      constructor
      · intro e
        split at e
        · rename_i hl; injection e with e; subst e; exact ⟨rfl, hl⟩
        · cases e
      · rintro ⟨h1, h2⟩
        injection h1 with h1
        subst h1
        rw [if_pos h2]
  have hb := decBytes_iff v b
  rw [IsPk, ← hb]
  unfold decPk
  refine (key _).trans ?_
  cases v <;> simp [IsText, decBytes, decVec]

theorem decSig_iff (L : Lib) (v : MP) (b : Bytes) : decSig L v = some b ↔ IsSig L b v := by
  rw [decSig, IsSig, ← decArr_iff]
  cases h : decArr 64 v with
  | none => simp
  | some c =>
    change (if L.validSig c = true then some c else none) = some b ↔ _
    constructor
    · intro e
      split at e
      · rename_i hl; injection e with e; subst e; exact ⟨rfl, hl⟩
      · cases e
    · rintro ⟨h1, h2⟩
      injection h1 with h1
      subst h1
      rw [if_pos h2]

theorem decHeader_iff {addr : MP → Option Bytes} {A : Bytes → MP → Prop} (hA : ∀ v x, addr v = some x ↔ A x v)
    (kvs : List MP) (h : Header) : decHeader addr kvs = some h ↔ ReadsHeader A kvs h := by
  obtain ⟨h1, h2, h3, h4, h5, h6, h7, h8, h9, h10⟩ := h
  have e1 := fun x => opt_iff hA none .snd zero32 kvs x
  have e2 := fun x => opt_iff (decUint_iff u64Lim) none .fee 0 kvs x
  have e3 := fun x => opt_iff (decUint_iff u64Lim) none .fv 0 kvs x
  have e4 := fun x => opt_iff (decUint_iff u64Lim) none .lv 0 kvs x
  have e5 := fun x => opt_iff decBytes_iff none .note [] kvs x
  have e6 := fun x => opt_iff decStr_iff none .gen [] kvs x
  have e7 := fun x => opt_iff (decArr_iff 32) none .gh zero32 kvs x
  have e8 := fun x => opt_iff (decArr_iff 32) none .grp zero32 kvs x
  have e9 := fun x => opt_iff (decArr_iff 32) none .lx zero32 kvs x
  have e10 := fun x => opt_iff hA none .rekey zero32 kvs x
  unfold decHeader
  simp only [bind, Option.bind_eq_some_iff, e1, e2, e3, e4, e5, e6, e7, e8, e9, e10]
  constructor
  · rintro ⟨_, a1, _, a2, _, a3, _, a4, _, a5, _, a6, _, a7, _, a8, _, a9, _, a10, e⟩
    injection e with e
    injection e with f1 f2 f3 f4 f5 f6 f7 f8 f9 f10
    subst f1 f2 f3 f4 f5 f6 f7 f8 f9 f10
    exact ⟨a1, a2, a3, a4, a5, a6, a7, a8, a9, a10⟩
  · rintro ⟨a1, a2, a3, a4, a5, a6, a7, a8, a9, a10⟩
    exact ⟨_, a1, _, a2, _, a3, _, a4, _, a5, _, a6, _, a7, _, a8, _, a9, _, a10, rfl⟩

theorem decSchema_iff (v : MP) (s : Teal.Schema) : decSchema v = some s ↔ IsSchema s v := by
  obtain ⟨s1, s2⟩ := s
  constructor
  · intro h
    unfold decSchema at h
    split at h
    · rename_i a b
      simp only [bind, Option.bind_eq_some_iff, decUint_iff] at h
      obtain ⟨_, a1, _, a2, e⟩ := h
      injection e with e
      injection e with f1 f2
      subst f1 f2
      exact .inl ⟨a, b, rfl, a1, a2⟩
    · simp only [bind, Option.bind_eq_some_iff, checkKeys_iff, req_iff (decUint_iff u64Lim)] at h
      obtain ⟨_, k0, _, a1, _, a2, e⟩ := h
      injection e with e
      injection e with f1 f2
      subst f1 f2
      exact .inr ⟨_, rfl, k0, a1, a2⟩
    · cases h
  · rintro (⟨a, b, rfl, a1, a2⟩ | ⟨kvs, rfl, k0, a1, a2⟩)
    · unfold decSchema
      simp only [bind, Option.bind_eq_some_iff, decUint_iff]
      exact ⟨_, a1, _, a2, rfl⟩
    · unfold decSchema
      simp only [bind, Option.bind_eq_some_iff, checkKeys_iff, req_iff (decUint_iff u64Lim)]
      exact ⟨(), k0, _, a1, _, a2, rfl⟩

theorem decAssetParams_iff {addr : MP → Option Bytes} {A : Bytes → MP → Prop} (hA : ∀ v x, addr v = some x ↔ A x v)
    (v : MP) (p : AssetParams) : decAssetParams addr v = some p ↔ IsAssetParams A p v := by
  obtain ⟨p1, p2, p3, p4, p5, p6, p7, p8, p9, p10, p11⟩ := p
  constructor
  · intro h
    unfold decAssetParams at h
    split at h
    · obtain ⟨_, a1, h⟩ := Option.bind_eq_some_iff.1 h
      obtain ⟨_, a2, h⟩ := Option.bind_eq_some_iff.1 h
      obtain ⟨_, a3, h⟩ := Option.bind_eq_some_iff.1 h
      obtain ⟨_, a4, h⟩ := Option.bind_eq_some_iff.1 h
      obtain ⟨_, a5, h⟩ := Option.bind_eq_some_iff.1 h
      obtain ⟨_, a6, h⟩ := Option.bind_eq_some_iff.1 h
      obtain ⟨_, a7, h⟩ := Option.bind_eq_some_iff.1 h
      obtain ⟨_, a8, h⟩ := Option.bind_eq_some_iff.1 h
      obtain ⟨_, a9, h⟩ := Option.bind_eq_some_iff.1 h
      obtain ⟨_, a10, h⟩ := Option.bind_eq_some_iff.1 h
      obtain ⟨_, a11, h⟩ := Option.bind_eq_some_iff.1 h
      injection h with e
      injection e with f1 f2 f3 f4 f5 f6 f7 f8 f9 f10 f11
      subst f1 f2 f3 f4 f5 f6 f7 f8 f9 f10 f11
      exact .inl ⟨_, _, _, _, _, _, _, _, _, _, _, rfl, (decUint_iff _ _ _).1 a1, (decUint_iff _ _ _).1 a2,
        (decBool_iff _ _).1 a3, (decStr_iff _ _).1 a4, (decStr_iff _ _).1 a5, (decStr_iff _ _).1 a6,
        (decArr_iff 32 _ _).1 a7, (hA _ _).1 a8, (hA _ _).1 a9, (hA _ _).1 a10, (hA _ _).1 a11⟩
    · obtain ⟨_, k0, h⟩ := Option.bind_eq_some_iff.1 h
      obtain ⟨_, a1, h⟩ := Option.bind_eq_some_iff.1 h
      obtain ⟨_, a2, h⟩ := Option.bind_eq_some_iff.1 h
      obtain ⟨_, a3, h⟩ := Option.bind_eq_some_iff.1 h
      obtain ⟨_, a4, h⟩ := Option.bind_eq_some_iff.1 h
      obtain ⟨_, a5, h⟩ := Option.bind_eq_some_iff.1 h
      obtain ⟨_, a6, h⟩ := Option.bind_eq_some_iff.1 h
      obtain ⟨_, a7, h⟩ := Option.bind_eq_some_iff.1 h
      obtain ⟨_, a8, h⟩ := Option.bind_eq_some_iff.1 h
      obtain ⟨_, a9, h⟩ := Option.bind_eq_some_iff.1 h
      obtain ⟨_, a10, h⟩ := Option.bind_eq_some_iff.1 h
      obtain ⟨_, a11, h⟩ := Option.bind_eq_some_iff.1 h
      injection h with e
      injection e with f1 f2 f3 f4 f5 f6 f7 f8 f9 f10 f11
      subst f1 f2 f3 f4 f5 f6 f7 f8 f9 f10 f11
      exact .inr ⟨_, rfl, (checkKeys_iff _ _).1 k0, (req_iff (decUint_iff _) _ _ _ _).1 a1, (req_iff (decUint_iff _) _ _ _ _).1 a2,
        (req_iff decBool_iff _ _ _ _).1 a3, (req_iff decStr_iff _ _ _ _).1 a4, (req_iff decStr_iff _ _ _ _).1 a5,
        (req_iff decStr_iff _ _ _ _).1 a6, (req_iff (decArr_iff 32) _ _ _ _).1 a7, (req_iff hA _ _ _ _).1 a8,
        (req_iff hA _ _ _ _).1 a9, (req_iff hA _ _ _ _).1 a10, (req_iff hA _ _ _ _).1 a11⟩
    · cases h
  · rintro (⟨a, b, c, d, e, f, g, h, i, j, k, rfl, a1, a2, a3, a4, a5, a6, a7, a8, a9, a10, a11⟩ |
      ⟨kvs, rfl, k0, a1, a2, a3, a4, a5, a6, a7, a8, a9, a10, a11⟩)
    rotate_left
    · unfold decAssetParams
      refine Option.bind_eq_some_iff.2 ⟨(), (checkKeys_iff _ _).2 k0, ?_⟩
      refine Option.bind_eq_some_iff.2 ⟨_, (req_iff (decUint_iff _) _ .total _ _).2 a1, ?_⟩
      refine Option.bind_eq_some_iff.2 ⟨_, (req_iff (decUint_iff _) _ .decimals _ _).2 a2, ?_⟩
      refine Option.bind_eq_some_iff.2 ⟨_, (req_iff decBool_iff _ .defaultFrozen _ _).2 a3, ?_⟩
      refine Option.bind_eq_some_iff.2 ⟨_, (req_iff decStr_iff _ .unitName _ _).2 a4, ?_⟩
      refine Option.bind_eq_some_iff.2 ⟨_, (req_iff decStr_iff _ .assetName _ _).2 a5, ?_⟩
      refine Option.bind_eq_some_iff.2 ⟨_, (req_iff decStr_iff _ .url _ _).2 a6, ?_⟩
      refine Option.bind_eq_some_iff.2 ⟨_, (req_iff (decArr_iff 32) _ .metadataHash _ _).2 a7, ?_⟩
      refine Option.bind_eq_some_iff.2 ⟨_, (req_iff hA _ .manager _ _).2 a8, ?_⟩
      refine Option.bind_eq_some_iff.2 ⟨_, (req_iff hA _ .reserve _ _).2 a9, ?_⟩
      refine Option.bind_eq_some_iff.2 ⟨_, (req_iff hA _ .freeze _ _).2 a10, ?_⟩
      refine Option.bind_eq_some_iff.2 ⟨_, (req_iff hA _ .clawback _ _).2 a11, ?_⟩
      rfl
    unfold decAssetParams
    refine Option.bind_eq_some_iff.2 ⟨_, (decUint_iff _ _ _).2 a1, ?_⟩
    refine Option.bind_eq_some_iff.2 ⟨_, (decUint_iff _ _ _).2 a2, ?_⟩
    refine Option.bind_eq_some_iff.2 ⟨_, (decBool_iff _ _).2 a3, ?_⟩
    refine Option.bind_eq_some_iff.2 ⟨_, (decStr_iff _ _).2 a4, ?_⟩
    refine Option.bind_eq_some_iff.2 ⟨_, (decStr_iff _ _).2 a5, ?_⟩
    refine Option.bind_eq_some_iff.2 ⟨_, (decStr_iff _ _).2 a6, ?_⟩
    refine Option.bind_eq_some_iff.2 ⟨_, (decArr_iff 32 _ _).2 a7, ?_⟩
    refine Option.bind_eq_some_iff.2 ⟨_, (hA _ _).2 a8, ?_⟩
    refine Option.bind_eq_some_iff.2 ⟨_, (hA _ _).2 a9, ?_⟩
    refine Option.bind_eq_some_iff.2 ⟨_, (hA _ _).2 a10, ?_⟩
    refine Option.bind_eq_some_iff.2 ⟨_, (hA _ _).2 a11, ?_⟩
    rfl

/-- The text of an action. -/
theorem isOnCompletion_eq (o : OnCompletion) (v : MP) :
    IsOnCompletion o v ↔ v = .str (asciiBytes (onCompletionName o)) := by cases o <;> exact Iff.rfl

theorem onCompletion_mem (o : OnCompletion) : o ∈ onCompletions := by cases o <;> decide

theorem onCompletion_nodup : (onCompletions.map fun o => asciiBytes (onCompletionName o)).Nodup := by decide +kernel

theorem decOnCompletion_iff (v : MP) (o : OnCompletion) : decOnCompletion v = some o ↔ IsOnCompletion o v := by
  rw [isOnCompletion_eq]
  cases v with
  | str s =>
    rw [decOnCompletion]
    constructor
    · intro h
      have := List.find?_some h
      rw [decide_eq_true_eq] at this
      rw [this]
    · intro h
      injection h with h
      subst h
      cases hf : onCompletions.find? fun o' => decide (asciiBytes (onCompletionName o') = asciiBytes (onCompletionName o)) with
      | none =>
        have := List.find?_eq_none.1 hf o (onCompletion_mem o)
        simp at this
      | some o' =>
        have h1 := List.find?_some hf
        rw [decide_eq_true_eq] at h1
        rw [List.inj_on_of_nodup_map onCompletion_nodup (onCompletion_mem o') (onCompletion_mem o) h1]
  | _ => simp [decOnCompletion]

theorem decCertType_iff (v : MP) (u : Unit) :
    decCertType v = some u ↔ v = .str (textBytes ['B', 'a', 's', 'i', 'c']) := by
  cases v with
  | str s =>
    rw [decCertType]
    change (if s = textBytes ['B', 'a', 's', 'i', 'c'] then some () else none) = _ ↔ _
    by_cases h : s = textBytes ['B', 'a', 's', 'i', 'c']
    · rw [if_pos h, h]; simp
    · rw [if_neg h]; simp [h]
  | _ => simp [decCertType]

theorem decKeyreg_iff (L : Lib) (kvs : List MP) (f : Keyreg) : decKeyreg L kvs = some f ↔
    Required kvs (some 0) (Key.chars .votePk) (IsPk L f.votePk) ∧
    Required kvs (some 1) (Key.chars .selectionPk) (IsArray 32 f.selectionPk) ∧
    Required kvs (some 2) (Key.chars .voteFirst) (IsUint u64Lim f.voteFirst) ∧
    Required kvs (some 3) (Key.chars .voteLast) (IsUint u64Lim f.voteLast) ∧
    Required kvs (some 4) (Key.chars .voteKeyDilution) (IsUint u64Lim f.voteKeyDilution) ∧
    Required kvs (some 5) (Key.chars .nonparticipation) (IsBool f.nonparticipation) := by
  obtain ⟨f1, f2, f3, f4, f5, f6⟩ := f
  unfold decKeyreg
  simp only [bind, Option.bind_eq_some_iff, req_iff (decPk_iff L), req_iff (decArr_iff 32), req_iff (decUint_iff u64Lim),
    req_iff decBool_iff]
  constructor
  · rintro ⟨_, a1, _, a2, _, a3, _, a4, _, a5, _, a6, e⟩
    injection e with e
    injection e with e1 e2 e3 e4 e5 e6
    subst e1 e2 e3 e4 e5 e6
    exact ⟨a1, a2, a3, a4, a5, a6⟩
  · rintro ⟨a1, a2, a3, a4, a5, a6⟩
    exact ⟨_, a1, _, a2, _, a3, _, a4, _, a5, _, a6, rfl⟩

theorem decPayment_iff {addr : MP → Option Bytes} {A : Bytes → MP → Prop} (hA : ∀ v x, addr v = some x ↔ A x v)
    (kvs : List MP) (f : Payment) : decPayment addr kvs = some f ↔
    Optional kvs (some 0) (Key.chars .rcv) (f.receiver = zero32) (A f.receiver) ∧
    Optional kvs (some 1) (Key.chars .amt) (f.amount = 0) (IsUint u64Lim f.amount) ∧
    Optional kvs (some 2) (Key.chars .close) (f.closeRemainderTo = none) (IsOption A f.closeRemainderTo) := by
  obtain ⟨f1, f2, f3⟩ := f
  unfold decPayment
  simp only [bind, Option.bind_eq_some_iff, opt_iff hA, opt_iff (decUint_iff u64Lim),
    opt_iff (decOpt_iff hA)]
  constructor
  · rintro ⟨_, a1, _, a2, _, a3, e⟩
    injection e with e
    injection e with e1 e2 e3
    subst e1 e2 e3
    exact ⟨a1, a2, a3⟩
  · rintro ⟨a1, a2, a3⟩
    exact ⟨_, a1, _, a2, _, a3, rfl⟩

theorem decAssetConfig_iff {addr : MP → Option Bytes} {A : Bytes → MP → Prop} (hA : ∀ v x, addr v = some x ↔ A x v)
    (kvs : List MP) (f : AssetConfig) : decAssetConfig addr kvs = some f ↔
    Required kvs (some 0) (Key.chars .configAsset) (IsUint u64Lim f.configAsset) ∧
    Required kvs (some 1) (Key.chars .assetParams) (IsAssetParams A f.assetParams) := by
  obtain ⟨f1, f2⟩ := f
  unfold decAssetConfig
  simp only [bind, Option.bind_eq_some_iff, req_iff (decUint_iff u64Lim), req_iff (decAssetParams_iff hA)]
  constructor
  · rintro ⟨_, a1, _, a2, e⟩
    injection e with e
    injection e with e1 e2
    subst e1 e2
    exact ⟨a1, a2⟩
  · rintro ⟨a1, a2⟩
    exact ⟨_, a1, _, a2, rfl⟩

theorem decAssetTransfer_iff {addr : MP → Option Bytes} {A : Bytes → MP → Prop} (hA : ∀ v x, addr v = some x ↔ A x v)
    (kvs : List MP) (f : AssetTransfer) : decAssetTransfer addr kvs = some f ↔
    Required kvs (some 0) (Key.chars .transferAsset) (IsUint u64Lim f.transferAsset) ∧
    Required kvs (some 1) (Key.chars .assetAmount) (IsUint u64Lim f.assetAmount) ∧
    Required kvs (some 2) (Key.chars .assetSender) (A f.assetSender) ∧
    Required kvs (some 3) (Key.chars .assetReceiver) (A f.assetReceiver) ∧
    Required kvs (some 4) (Key.chars .assetCloseTo) (A f.assetCloseTo) := by
  obtain ⟨f1, f2, f3, f4, f5⟩ := f
  unfold decAssetTransfer
  simp only [bind, Option.bind_eq_some_iff, req_iff (decUint_iff u64Lim), req_iff hA]
  constructor
  · rintro ⟨_, a1, _, a2, _, a3, _, a4, _, a5, e⟩
    injection e with e
    injection e with e1 e2 e3 e4 e5
    subst e1 e2 e3 e4 e5
    exact ⟨a1, a2, a3, a4, a5⟩
  · rintro ⟨a1, a2, a3, a4, a5⟩
    exact ⟨_, a1, _, a2, _, a3, _, a4, _, a5, rfl⟩

theorem decAssetFreeze_iff {addr : MP → Option Bytes} {A : Bytes → MP → Prop} (hA : ∀ v x, addr v = some x ↔ A x v)
    (kvs : List MP) (f : AssetFreeze) : decAssetFreeze addr kvs = some f ↔
    Required kvs (some 0) (Key.chars .freezeAccount) (A f.freezeAccount) ∧
    Required kvs (some 1) (Key.chars .freezeAsset) (IsUint u64Lim f.freezeAsset) ∧
    Required kvs (some 2) (Key.chars .assetFrozen) (IsBool f.assetFrozen) := by
  obtain ⟨f1, f2, f3⟩ := f
  unfold decAssetFreeze
  simp only [bind, Option.bind_eq_some_iff, req_iff (decUint_iff u64Lim), req_iff hA,
    req_iff decBool_iff]
  constructor
  · rintro ⟨_, a1, _, a2, _, a3, e⟩
    injection e with e
    injection e with e1 e2 e3
    subst e1 e2 e3
    exact ⟨a1, a2, a3⟩
  · rintro ⟨a1, a2, a3⟩
    exact ⟨_, a1, _, a2, _, a3, rfl⟩

theorem decAppCall_iff {addr : MP → Option Bytes} {A : Bytes → MP → Prop} (hA : ∀ v x, addr v = some x ↔ A x v)
    (kvs : List MP) (f : AppCall) : decAppCall addr kvs = some f ↔
    Required kvs (some 0) (Key.chars .applicationId) (IsUint u64Lim f.applicationId) ∧
    Required kvs (some 1) (Key.chars .onCompletion) (IsOnCompletion f.onCompletion) ∧
    Required kvs (some 2) (Key.chars .applicationArgs) (IsList IsBytes f.applicationArgs) ∧
    Required kvs (some 3) (Key.chars .accounts) (IsList A f.accounts) ∧
    Required kvs (some 4) (Key.chars .foreignApps) (IsList (IsUint u64Lim) f.foreignApps) ∧
    Required kvs (some 5) (Key.chars .foreignAssets) (IsList (IsUint u64Lim) f.foreignAssets) ∧
    Required kvs (some 6) (Key.chars .localStateSchema) (IsSchema f.localStateSchema) ∧
    Required kvs (some 7) (Key.chars .globalStateSchema) (IsSchema f.globalStateSchema) ∧
    Required kvs (some 8) (Key.chars .approvalProgram) (IsBytes f.approvalProgram) ∧
    Required kvs (some 9) (Key.chars .clearStateProgram) (IsBytes f.clearStateProgram) ∧
    Required kvs (some 10) (Key.chars .extraProgramPages) (IsUint u32Lim f.extraProgramPages) := by
  obtain ⟨f1, f2, f3, f4, f5, f6, f7, f8, f9, f10, f11⟩ := f
  unfold decAppCall
  simp only [bind, Option.bind_eq_some_iff, req_iff (decUint_iff _), req_iff (decVec_iff hA),
    req_iff decOnCompletion_iff, req_iff (decVec_iff decBytes_iff), req_iff (decVec_iff (decUint_iff _)),
    req_iff decSchema_iff, req_iff decBytes_iff]
  constructor
  · rintro ⟨_, a1, _, a2, _, a3, _, a4, _, a5, _, a6, _, a7, _, a8, _, a9, _, a10, _, a11, e⟩
    injection e with e
    injection e with e1 e2 e3 e4 e5 e6 e7 e8 e9 e10 e11
    subst e1 e2 e3 e4 e5 e6 e7 e8 e9 e10 e11
    exact ⟨a1, a2, a3, a4, a5, a6, a7, a8, a9, a10, a11⟩
  · rintro ⟨a1, a2, a3, a4, a5, a6, a7, a8, a9, a10, a11⟩
    exact ⟨_, a1, _, a2, _, a3, _, a4, _, a5, _, a6, _, a7, _, a8, _, a9, _, a10, _, a11, rfl⟩

theorem decCompactCert_iff (kvs : List MP) (f : CompactCert) : decCompactCert kvs = some f ↔
    Required kvs (some 0) (Key.chars .certRound) (IsUint u64Lim f.certRound) ∧
    Required kvs (some 1) (Key.chars .certType) (· = .str (textBytes ['B', 'a', 's', 'i', 'c'])) := by
  obtain ⟨f1⟩ := f
  unfold decCompactCert
  simp only [bind, Option.bind_eq_some_iff, req_iff (decUint_iff u64Lim),
    req_iff (P := fun _ v => v = .str (textBytes ['B', 'a', 's', 'i', 'c'])) decCertType_iff]
  constructor
  · rintro ⟨_, a1, _, a2, e⟩
    injection e with e
    injection e with e1
    subst e1
    exact ⟨a1, a2⟩
  · rintro ⟨a1, a2⟩
    exact ⟨_, a1, (), a2, rfl⟩

theorem map_some_iff {α β : Type} (o : Option α) (c : α → β) (y : β) :
    o.map c = some y ↔ ∃ x, o = some x ∧ c x = y := Option.map_eq_some_iff

/-- The names of the types are texts of characters. -/
theorem required_ascii {kvs : List MP} {p : Option Nat} {n : List Char} {s : Bytes} (h : utf8 s = true) :
    Required kvs p n (IsString s) ↔ Required kvs p n (IsText s) := by
  constructor
  · rintro ⟨v, h1, h2⟩
    exact ⟨v, h1, h2.1⟩
  · rintro ⟨v, h1, h2⟩
    exact ⟨v, h1, h2, (utf8_iff _).1 h⟩

theorem decFields_iff (L : Lib) {addr : MP → Option Bytes} {A : Bytes → MP → Prop} (hA : ∀ v x, addr v = some x ↔ A x v)
    (kvs : List MP) (f : Fields) :
    decFields L addr kvs = some f ↔ ReadsFields L A kvs f := by
  have tag := fun x => req_iff decStr_iff none .txType kvs x
  constructor
  · intro h
    unfold decFields at h
    simp only [bind, Option.bind_eq_some_iff, tag] at h
    obtain ⟨t, ht, h⟩ := h
    split at h
    · rename_i e; subst e
      obtain ⟨x, h1, rfl⟩ := (map_some_iff _ _ _).1 h
      exact ⟨(required_ascii (by decide)).1 ht, (decKeyreg_iff L kvs x).1 h1⟩
    split at h
    · rename_i e; subst e
      obtain ⟨x, h1, rfl⟩ := (map_some_iff _ _ _).1 h
      exact ⟨(required_ascii (by decide)).1 ht, (decPayment_iff hA kvs x).1 h1⟩
    split at h
    · rename_i e; subst e
      obtain ⟨x, h1, rfl⟩ := (map_some_iff _ _ _).1 h
      exact ⟨(required_ascii (by decide)).1 ht, (decAssetConfig_iff hA kvs x).1 h1⟩
    split at h
    · rename_i e; subst e
      obtain ⟨x, h1, rfl⟩ := (map_some_iff _ _ _).1 h
      exact ⟨(required_ascii (by decide)).1 ht, (decAssetTransfer_iff hA kvs x).1 h1⟩
    split at h
    · rename_i e; subst e
      obtain ⟨x, h1, rfl⟩ := (map_some_iff _ _ _).1 h
      exact ⟨(required_ascii (by decide)).1 ht, (decAssetFreeze_iff hA kvs x).1 h1⟩
    split at h
    · rename_i e; subst e
      obtain ⟨x, h1, rfl⟩ := (map_some_iff _ _ _).1 h
      exact ⟨(required_ascii (by decide)).1 ht, (decAppCall_iff hA kvs x).1 h1⟩
    split at h
    · rename_i e; subst e
      obtain ⟨x, h1, rfl⟩ := (map_some_iff _ _ _).1 h
      exact ⟨(required_ascii (by decide)).1 ht, (decCompactCert_iff kvs x).1 h1⟩
    · cases h
  · intro h
    unfold decFields
    simp only [bind, Option.bind_eq_some_iff, tag]
    cases f with
    | keyreg x =>
      refine ⟨asciiBytes ['k', 'e', 'y', 'r', 'e', 'g'], (required_ascii (by decide)).2 h.1, ?_⟩
      rw [if_pos rfl, (decKeyreg_iff L kvs x).2 h.2]; rfl
    | payment x =>
      refine ⟨asciiBytes ['p', 'a', 'y'], (required_ascii (by decide)).2 h.1, ?_⟩
      rw [if_neg (by decide), if_pos rfl, (decPayment_iff hA kvs x).2 h.2]; rfl
    | assetConfig x =>
      refine ⟨asciiBytes ['a', 'c', 'f', 'g'], (required_ascii (by decide)).2 h.1, ?_⟩
      rw [if_neg (by decide), if_neg (by decide), if_pos rfl, (decAssetConfig_iff hA kvs x).2 h.2]; rfl
    | assetTransfer x =>
      refine ⟨asciiBytes ['a', 'x', 'f', 'e', 'r'], (required_ascii (by decide)).2 h.1, ?_⟩
      rw [if_neg (by decide), if_neg (by decide), if_neg (by decide), if_pos rfl, (decAssetTransfer_iff hA kvs x).2 h.2]; rfl
    | assetFreeze x =>
      refine ⟨asciiBytes ['a', 'f', 'r', 'z'], (required_ascii (by decide)).2 h.1, ?_⟩
      rw [if_neg (by decide), if_neg (by decide), if_neg (by decide), if_neg (by decide), if_pos rfl,
        (decAssetFreeze_iff hA kvs x).2 h.2]; rfl
    | appCall x =>
      refine ⟨asciiBytes ['a', 'p', 'p', 'l'], (required_ascii (by decide)).2 h.1, ?_⟩
      rw [if_neg (by decide), if_neg (by decide), if_neg (by decide), if_neg (by decide), if_neg (by decide), if_pos rfl,
        (decAppCall_iff hA kvs x).2 h.2]; rfl
    | compactCert x =>
      refine ⟨asciiBytes ['c', 'e', 'r', 't'], (required_ascii (by decide)).2 h.1, ?_⟩
      rw [if_neg (by decide), if_neg (by decide), if_neg (by decide), if_neg (by decide), if_neg (by decide),
        if_neg (by decide), if_pos rfl, (decCompactCert_iff kvs x).2 h.2]; rfl

theorem decTxWith_iff (L : Lib) {addr : MP → Option Bytes} {A : Bytes → MP → Prop}
    (hA : ∀ v x, addr v = some x ↔ A x v) (v : MP) (t : Transaction) :
    decTxWith L addr v = some t ↔ ReadsTx L A t v := by
  obtain ⟨h, f⟩ := t
  rw [ReadsTx]
  constructor
  · intro hd
    unfold decTxWith at hd
    split at hd
    · rename_i kvs
      simp only [bind, Option.bind_eq_some_iff, checkKeys_iff, decHeader_iff hA, decFields_iff L hA] at hd
      obtain ⟨_, k0, _, a1, _, a2, e⟩ := hd
      injection e with e
      injection e with e1 e2
      subst e1 e2
      exact ⟨kvs, rfl, k0, a1, a2⟩
    · cases hd
  · rintro ⟨kvs, rfl, k0, a1, a2⟩
    unfold decTxWith
    simp only [bind, Option.bind_eq_some_iff, checkKeys_iff, decHeader_iff hA, decFields_iff L hA]
    exact ⟨(), k0, _, a1, _, a2, rfl⟩

theorem decTx_iff (L : Lib) (v : MP) (t : Transaction) : decTx L v = some t ↔ ReadsTx L (IsArray 32) t v :=
  decTxWith_iff L (decArr_iff 32) v t

/-- C118: a byte string is read as a transaction exactly if it begins with a representation of a map whose entries stand
for the fields of that transaction; entries with other names and what follows the map are ignored. -/
theorem C118_reads (L : Lib) (bs : Bytes) (t : Transaction) :
    decodeTx L bs = some t ↔ ∃ v p rest, bs = p ++ rest ∧ Repr v p ∧ ReadsTx L (IsArray 32) t v := by
  rw [decodeTx, Option.bind_eq_some_iff]
  constructor
  · rintro ⟨⟨v, r⟩, h1, h2⟩
    obtain ⟨p, e, hp⟩ := (C119_reader _ _ _).1 h1
    exact ⟨v, p, r, e, hp, (decTx_iff L v t).1 h2⟩
  · rintro ⟨v, p, r, e, hp, h⟩
    exact ⟨(v, r), (C119_reader _ _ _).2 ⟨p, e, hp⟩, (decTx_iff L v t).2 h⟩

theorem decSubsig_iff (L : Lib) (v : MP) (s : Subsig) : decSubsig L v = some s ↔ IsSubsig L s v := by
  obtain ⟨s1, s2⟩ := s
  constructor
  · intro h
    unfold decSubsig at h
    split at h
    · simp only [bind, Option.bind_eq_some_iff, decPk_iff, decOpt_iff (decSig_iff L)] at h
      obtain ⟨_, a1, _, a2, e⟩ := h
      injection e with e
      injection e with f1 f2
      subst f1 f2
      exact .inl ⟨_, _, rfl, a1, a2⟩
    · simp only [bind, Option.bind_eq_some_iff, checkKeys_iff, req_iff (decPk_iff L), opt_iff (decOpt_iff (decSig_iff L))] at h
      obtain ⟨_, k0, _, a1, _, a2, e⟩ := h
      injection e with e
      injection e with f1 f2
      subst f1 f2
      exact .inr ⟨_, rfl, k0, a1, a2⟩
    · cases h
  · rintro (⟨a, b, rfl, a1, a2⟩ | ⟨kvs, rfl, k0, a1, a2⟩)
    · unfold decSubsig
      simp only [bind, Option.bind_eq_some_iff, decPk_iff, decOpt_iff (decSig_iff L)]
      exact ⟨_, a1, _, a2, rfl⟩
    · unfold decSubsig
      simp only [bind, Option.bind_eq_some_iff, checkKeys_iff, req_iff (decPk_iff L), opt_iff (decOpt_iff (decSig_iff L))]
      exact ⟨(), k0, _, a1, _, a2, rfl⟩

theorem decMsig_iff (L : Lib) (v : MP) (m : Msig) : decMsig L v = some m ↔ IsMsig L m v := by
  obtain ⟨m1, m2, m3⟩ := m
  constructor
  · intro h
    unfold decMsig at h
    split at h
    · simp only [bind, Option.bind_eq_some_iff, decByte_iff, decVec_iff (decSubsig_iff L)] at h
      obtain ⟨_, a1, _, a2, _, a3, e⟩ := h
      injection e with e
      injection e with f1 f2 f3
      subst f1 f2 f3
      exact .inl ⟨_, _, _, rfl, a1, a2, a3⟩
    · simp only [bind, Option.bind_eq_some_iff, checkKeys_iff, req_iff decByte_iff, req_iff (decVec_iff (decSubsig_iff L))] at h
      obtain ⟨_, k0, _, a1, _, a2, _, a3, e⟩ := h
      injection e with e
      injection e with f1 f2 f3
      subst f1 f2 f3
      exact .inr ⟨_, rfl, k0, a1, a2, a3⟩
    · cases h
  · rintro (⟨a, b, c, rfl, a1, a2, a3⟩ | ⟨kvs, rfl, k0, a1, a2, a3⟩)
    · unfold decMsig
      simp only [bind, Option.bind_eq_some_iff, decByte_iff, decVec_iff (decSubsig_iff L)]
      exact ⟨_, a1, _, a2, _, a3, rfl⟩
    · unfold decMsig
      simp only [bind, Option.bind_eq_some_iff, checkKeys_iff, req_iff decByte_iff, req_iff (decVec_iff (decSubsig_iff L))]
      exact ⟨(), k0, _, a1, _, a2, _, a3, rfl⟩

theorem decLsig_iff (L : Lib) (v : MP) (l : LogicSig) : decLsig L v = some l ↔ IsLsig L l v := by
  obtain ⟨m1, m2, m3, m4⟩ := l
  constructor
  · intro h
    unfold decLsig at h
    split at h
    · simp only [bind, Option.bind_eq_some_iff, decBytes_iff, decSig_iff, decMsig_iff, decVec_iff decBytes_iff] at h
      obtain ⟨_, a1, _, a2, _, a3, _, a4, e⟩ := h
      injection e with e
      injection e with f1 f2 f3 f4
      subst f1 f2 f3 f4
      exact .inl ⟨_, _, _, _, rfl, a1, a2, a3, a4⟩
    · simp only [bind, Option.bind_eq_some_iff, checkKeys_iff, req_iff decBytes_iff, req_iff (decSig_iff L), req_iff (decMsig_iff L),
        req_iff (decVec_iff decBytes_iff)] at h
      obtain ⟨_, k0, _, a1, _, a2, _, a3, _, a4, e⟩ := h
      injection e with e
      injection e with f1 f2 f3 f4
      subst f1 f2 f3 f4
      exact .inr ⟨_, rfl, k0, a1, a2, a3, a4⟩
    · cases h
  · rintro (⟨a, b, c, d, rfl, a1, a2, a3, a4⟩ | ⟨kvs, rfl, k0, a1, a2, a3, a4⟩)
    · unfold decLsig
      simp only [bind, Option.bind_eq_some_iff, decBytes_iff, decSig_iff, decMsig_iff, decVec_iff decBytes_iff]
      exact ⟨_, a1, _, a2, _, a3, _, a4, rfl⟩
    · unfold decLsig
      simp only [bind, Option.bind_eq_some_iff, checkKeys_iff, req_iff decBytes_iff, req_iff (decSig_iff L), req_iff (decMsig_iff L),
        req_iff (decVec_iff decBytes_iff)]
      exact ⟨(), k0, _, a1, _, a2, _, a3, _, a4, rfl⟩

theorem next_iff {α : Type} {f : MP → Option α} (l : List MP) (x : α) (r : List MP) :
    next f l = some (x, r) ↔ ∃ v, l = v :: r ∧ f v = some x := by
  cases l with
  | nil => simp [next]
  | cons v l =>
    rw [next, Option.map_eq_some_iff]
    constructor
    · rintro ⟨a, h1, h2⟩
      injection h2 with h2 h3
      subst h2 h3
      exact ⟨v, rfl, h1⟩
    · rintro ⟨w, e, h⟩
      injection e with e1 e2
      subst e1 e2
      exact ⟨x, h, rfl⟩

theorem nextOr_iff {α : Type} {f : MP → Option α} (d : α) (l : List MP) (x : α) (r : List MP) :
    nextOr f d l = some (x, r) ↔ (l = [] ∧ x = d ∧ r = []) ∨ ∃ v, l = v :: r ∧ f v = some x := by
  cases l with
  | nil =>
    rw [nextOr]
    constructor
    · intro h
      injection h with h
      injection h with h1 h2
      exact .inl ⟨rfl, h1.symm, h2.symm⟩
    · rintro (⟨_, rfl, rfl⟩ | ⟨v, e, _⟩)
      · rfl
      · cases e
  | cons v l =>
    rw [nextOr, Option.map_eq_some_iff]
    constructor
    · rintro ⟨a, h1, h2⟩
      injection h2 with h2 h3
      subst h2 h3
      exact .inr ⟨v, rfl, h1⟩
    · rintro (⟨e, _⟩ | ⟨w, e, h⟩)
      · cases e
      · injection e with e1 e2
        subst e1 e2
        exact ⟨x, h, rfl⟩

theorem decAddrDirect_iff (L : Lib) (v : MP) (b : Bytes) : decAddrDirect L v = some b ↔ IsAuth L b v := by
  unfold IsAuth
  cases v with
  | bin s =>
    rw [decAddrDirect]
    by_cases h : L.binAsSeq = true ∧ s.length = 32
    · rw [if_pos h]
      constructor
      · intro e; injection e with e; subst e; exact .inr ⟨h.1, rfl, h.2⟩
      · rintro (⟨e, _⟩ | ⟨_, e, _⟩)
        · cases e
        · injection e with e; rw [e]
    · rw [if_neg h]
      constructor
      · intro e; cases e
      · rintro (⟨e, _⟩ | ⟨h1, e, h2⟩)
        · cases e
        · injection e with e; subst e; exact absurd ⟨h1, h2⟩ h
  | _ => simp [decAddrDirect, decArr_iff]

theorem decStx_iff (L : Lib) (v : MP) (s : SignedTx) : decStx L v = some s ↔ ReadsStx L s v := by
  obtain ⟨s1, s2, s3, s4, s5⟩ := s
  constructor
  · intro h
    unfold decStx at h
    split at h
    · rename_i l
      simp only [bind, Option.bind_eq_some_iff, Prod.exists, next_iff, nextOr_iff] at h
      obtain ⟨x1, r1, ⟨a, rfl, a1⟩, x2, r2, h2, x3, r3, h3, x4, r4, ⟨d, hd, a4⟩, x5, r5, h5, e⟩ := h
      split at e
      · rename_i he
        injection e with e
        injection e with f1 f2 f3 f4 f5
        subst f1 f2 f3 f4 f5
        rw [List.isEmpty_iff] at he
        rcases h3 with ⟨rfl, _, rfl⟩ | ⟨c, rfl, a3⟩
        · cases hd
        subst hd
        rcases h2 with ⟨rfl, _, e2⟩ | ⟨b, rfl, a2⟩
        · cases e2
        refine .inl ⟨a, b, c, d, r4, rfl, (decSig_iff _ _ _).1 a1, (decOpt_iff (decMsig_iff L) _ _).1 a2,
          (decOpt_iff (decLsig_iff L) _ _).1 a3, (decTx_iff _ _ _).1 a4, ?_⟩
        rcases h5 with ⟨rfl, e5, _⟩ | ⟨w, rfl, a5⟩
        · exact .inl ⟨rfl, e5⟩
        · subst he
          exact .inr ⟨w, rfl, (decAddrDirect_iff _ _ _).1 a5⟩
      · cases e
    · simp only [bind, Option.bind_eq_some_iff, checkKeys_iff, req_iff (decSig_iff L), opt_iff (decOpt_iff (decMsig_iff L)),
        opt_iff (decOpt_iff (decLsig_iff L)), req_iff (decTx_iff L), opt_iff (decAddrDirect_iff L)] at h
      obtain ⟨_, k0, _, a1, _, a2, _, a3, _, a4, _, a5, e⟩ := h
      injection e with e
      injection e with f1 f2 f3 f4 f5
      subst f1 f2 f3 f4 f5
      exact .inr ⟨_, rfl, k0, a1, a2, a3, a4, a5⟩
    · cases h
  · rintro (⟨a, b, c, d, r, rfl, a1, a2, a3, a4, h5⟩ | ⟨kvs, rfl, k0, a1, a2, a3, a4, a5⟩)
    rotate_left
    · unfold decStx
      simp only [bind, Option.bind_eq_some_iff, checkKeys_iff, req_iff (decSig_iff L), opt_iff (decOpt_iff (decMsig_iff L)),
        opt_iff (decOpt_iff (decLsig_iff L)), req_iff (decTx_iff L), opt_iff (decAddrDirect_iff L)]
      exact ⟨(), k0, _, a1, _, a2, _, a3, _, a4, _, a5, rfl⟩
    unfold decStx
    simp only [bind, Option.bind_eq_some_iff, Prod.exists, next_iff, nextOr_iff]
    refine ⟨s1, _, ⟨a, rfl, (decSig_iff _ _ _).2 a1⟩, s2, _, .inr ⟨b, rfl, (decOpt_iff (decMsig_iff L) _ _).2 a2⟩,
      s3, _, .inr ⟨c, rfl, (decOpt_iff (decLsig_iff L) _ _).2 a3⟩, s4, _, ⟨d, rfl, (decTx_iff _ _ _).2 a4⟩, ?_⟩
    rcases h5 with ⟨rfl, e⟩ | ⟨w, rfl, h⟩
    · exact ⟨s5, [], .inl ⟨rfl, e, rfl⟩, rfl⟩
    · exact ⟨s5, [], .inr ⟨w, rfl, (decAddrDirect_iff _ _ _).2 h⟩, rfl⟩

/-- C118: a byte string is read as a signed transaction exactly if it begins with a representation of a list of its
signature, multisignature, logic signature, transaction and (optionally) authorizing address, and nothing more; or of a
map with these under their names. -/
theorem C118_reads_signed (L : Lib) (bs : Bytes) (s : SignedTx) :
    decodeStx L bs = some s ↔ ∃ v p rest, bs = p ++ rest ∧ Repr v p ∧ ReadsStx L s v := by
  rw [decodeStx, Option.bind_eq_some_iff]
  constructor
  · rintro ⟨⟨v, r⟩, h1, h2⟩
    obtain ⟨p, e, hp⟩ := (C119_reader _ _ _).1 h1
    exact ⟨v, p, r, e, hp, (decStx_iff L v s).1 h2⟩
  · rintro ⟨v, p, r, e, hp, h⟩
    exact ⟨(v, r), (C119_reader _ _ _).2 ⟨p, e, hp⟩, (decStx_iff L v s).2 h⟩

end Verif.Props
