import Verif.Lemmas.Genesis
import Verif.Props.Codec
import Verif.Props.Balance
import Mathlib.Data.List.Forall2
/-!
# C122 to C125: the hash of the genesis data, and loading it from a file

A map is a list of entries here, in the order in which the implementation happens to yield them. The specification of
"the same genesis data" (`SameGenesis`) ignores this order.
-/

namespace Verif.Props
open Verif Verif.Msgpack Verif.Codec Verif.Genesis Verif.HashId Verif.Tx Verif.Balance Verif.Consensus Verif.Teal

/-! ## C122: the hash identifies the genesis data -/

/-- **C122**: two genesis configurations with the same hash agree in everything: network, schema, protocol, special
addresses, timestamp, comments and every field of every allocated account; or the two strings hashed are a collision. -/
theorem C122_hash_identifies (hash : Bytes → Bytes) (L : Lib) (a b : Genesis) (ha : GenesisTyped L a)
    (hb : GenesisTyped L b) (h : genesisHash hash a = genesisHash hash b) :
    a = b ∨ (HashId.genesis.bytes ++ enc (genesisMP a) ≠ HashId.genesis.bytes ++ enc (genesisMP b) ∧
      hash (HashId.genesis.bytes ++ enc (genesisMP a)) = hash (HashId.genesis.bytes ++ enc (genesisMP b))) := by
  by_cases he : HashId.genesis.bytes ++ enc (genesisMP a) = HashId.genesis.bytes ++ enc (genesisMP b)
  · exact Or.inl (genesisMP_inj ha.sizes hb.sizes
      (enc_inj (fits_genesis ha) (fits_genesis hb) (List.append_cancel_left he)))
  · exact Or.inr ⟨he, h⟩

/-- **C122**: the hash of genesis data is the hash of no other kind of object, except by a collision of the two strings. -/
theorem C122_no_other_object (hash : Bytes → Bytes) (g : Genesis) (o : ToBeHashed) (ho : o.id ≠ .genesis)
    (h : genesisHash hash g = hashObj hash o) :
    HashId.genesis.bytes ++ enc (genesisMP g) ≠ o.id.bytes ++ o.data ∧
      hash (HashId.genesis.bytes ++ enc (genesisMP g)) = hash (o.id.bytes ++ o.data) := by
  refine ⟨fun e => ?_, h⟩
  exact ho (congrArg ToBeHashed.id (C14_domain_separation ⟨.genesis, enc (genesisMP g)⟩ o e)).symm

/-- An account with two assets, the first and second of which have these indices. -/
def toyHolder (i j : Nat) : AccountData where
  status := .online
  microAlgos := 1000000
  rewardsBase := 0
  rewarded := 0
  voteId := List.replicate 32 1
  selectionId := List.replicate 32 2
  voteFirstValid := 0
  voteLastValid := 3000000
  voteKeyDilution := 10000
  assetParams := []
  assets := [(i, ⟨5, false⟩), (j, ⟨5, false⟩)]
  authAddr := List.replicate 32 0
  appLocalStates := []
  appParams := []
  totalAppSchema := ⟨0, 0⟩
  totalExtraAppPages := 0

/-- Genesis data with one allocation. -/
def toyNetwork (state : AccountData) : Genesis where
  schemaId := [118, 49]
  network := [116]
  proto := .v28
  allocation := [⟨[65], [], state⟩]
  rewardsPool := [66]
  feeSink := [67]
  timestamp := 1
  comment := []
  devMode := false

/-- The library accepts every key. -/
def anyKey (binAsSeq : Bool) : Lib := ⟨fun _ => true, fun _ => true, binAsSeq⟩

theorem toyHolder_typed (b : Bool) (i j : Nat) (hi : i < u64Lim) (hj : j < u64Lim) (h : i ≠ j) :
    AccountTyped (anyKey b) (toyHolder i j) where
  microAlgos := show 1000000 < u64Lim by decide
  rewardsBase := show 0 < u64Lim by decide
  rewarded := show 0 < u64Lim by decide
  voteId := rfl
  voteIdKey := rfl
  selectionId := rfl
  voteFirstValid := show 0 < u64Lim by decide
  voteLastValid := show 3000000 < u64Lim by decide
  voteKeyDilution := show 10000 < u64Lim by decide
  assetParams := ⟨show 0 < u32Lim by decide, by simp [toyHolder], by simp [toyHolder]⟩
  assets := ⟨show 2 < u32Lim by decide, by simp [toyHolder, h], by simp [toyHolder, hi, hj, u64Lim]⟩
  authAddr := rfl
  appLocalStates := ⟨show 0 < u32Lim by decide, by simp [toyHolder], by simp [toyHolder]⟩
  appParams := ⟨show 0 < u32Lim by decide, by simp [toyHolder], by simp [toyHolder]⟩
  totalAppSchema := show 0 < u64Lim ∧ 0 < u64Lim by decide
  totalExtraAppPages := show 0 < u32Lim by decide

theorem toyNetwork_typed {L : Lib} (s : AccountData) (h : AccountTyped L s) : GenesisTyped L (toyNetwork s) where
  schemaId := show TextTyped [118, 49] by constructor <;> decide
  network := show TextTyped [116] by constructor <;> decide
  allocation := by
    refine ⟨show 1 < u32Lim by decide, fun a ha => ?_⟩
    rw [List.mem_singleton.1 ha]
    exact ⟨show TextTyped [65] by constructor <;> decide, show TextTyped [] by constructor <;> decide, h⟩
  rewardsPool := show TextTyped [66] by constructor <;> decide
  feeSink := show TextTyped [67] by constructor <;> decide
  timestamp := show 1 < u64Lim by decide
  comment := show TextTyped [] by constructor <;> decide

/-- A change of one holding changes the string that is hashed. -/
example : genesisHash id (toyNetwork (toyHolder 7 8)) ≠ genesisHash id (toyNetwork (toyHolder 7 9)) := by
  intro h
  rcases C122_hash_identifies id (anyKey true) _ _
    (toyNetwork_typed _ (toyHolder_typed true 7 8 (by decide) (by decide) (by decide)))
    (toyNetwork_typed _ (toyHolder_typed true 7 9 (by decide) (by decide) (by decide))) h with h | h
  · revert h; decide
  · exact h.1 h.2

/-! ## C123: the hash does not depend on anything else -/

/-- The same map: the same keys, with values that are the same, in any order. -/
def SameMap {κ ν : Type} (V : ν → ν → Prop) (l l' : List (κ × ν)) : Prop :=
  ∃ m, m.Perm l' ∧ List.Forall₂ (fun a b => a.1 = b.1 ∧ V a.2 b.2) l m

/-- The same local state. -/
def SameLocal (a b : LocalState) : Prop := a.schema = b.schema ∧ SameMap (· = ·) a.keyValue b.keyValue

/-- The same application. -/
def SameApp (a b : AppParams) : Prop :=
  SameMap (· = ·) a.globalState b.globalState ∧ { a with globalState := b.globalState } = b

/-- The same account. -/
def SameAccount (a b : AccountData) : Prop :=
  SameMap (· = ·) a.assetParams b.assetParams ∧ SameMap (· = ·) a.assets b.assets ∧
  SameMap SameLocal a.appLocalStates b.appLocalStates ∧ SameMap SameApp a.appParams b.appParams ∧
  { a with assetParams := b.assetParams, assets := b.assets, appLocalStates := b.appLocalStates,
           appParams := b.appParams } = b

/-- The same allocation. -/
def SameAllocation (a b : Allocation) : Prop :=
  a.address = b.address ∧ a.comment = b.comment ∧ SameAccount a.state b.state

/-- The same genesis data: only the order in which maps yield their entries may differ. -/
def SameGenesis (a b : Genesis) : Prop :=
  List.Forall₂ SameAllocation a.allocation b.allocation ∧ { a with allocation := b.allocation } = b

theorem sameMap_refl {κ ν : Type} {V : ν → ν → Prop} (hV : ∀ x, V x x) (l : List (κ × ν)) : SameMap V l l :=
  ⟨l, List.Perm.refl l, List.forall₂_same.2 fun a _ => ⟨rfl, hV a.2⟩⟩

/-- C123 is violated: the same account data with two assets can be yielded in two orders, and then the same genesis data has
two hashes (or the two strings hashed are a collision). -/
theorem C123_violated (hash : Bytes → Bytes) (i j : Nat) (hi : i < u64Lim) (hj : j < u64Lim) (h : i ≠ j) :
    SameGenesis (toyNetwork (toyHolder i j)) (toyNetwork (toyHolder j i)) ∧
    (genesisHash hash (toyNetwork (toyHolder i j)) ≠ genesisHash hash (toyNetwork (toyHolder j i)) ∨
      (HashId.genesis.bytes ++ enc (genesisMP (toyNetwork (toyHolder i j))) ≠
          HashId.genesis.bytes ++ enc (genesisMP (toyNetwork (toyHolder j i))) ∧
        hash (HashId.genesis.bytes ++ enc (genesisMP (toyNetwork (toyHolder i j)))) =
          hash (HashId.genesis.bytes ++ enc (genesisMP (toyNetwork (toyHolder j i)))))) := by
  constructor
  · refine ⟨?_, rfl⟩
    refine List.Forall₂.cons ⟨rfl, rfl, ?_⟩ List.Forall₂.nil
    refine ⟨⟨[], List.Perm.refl _, .nil⟩, ⟨_, List.Perm.swap _ _ _, ?_⟩, ⟨[], List.Perm.refl _, .nil⟩,
      ⟨[], List.Perm.refl _, .nil⟩, rfl⟩
    exact List.forall₂_same.2 fun a _ => ⟨rfl, rfl⟩
  · by_cases he : genesisHash hash (toyNetwork (toyHolder i j)) = genesisHash hash (toyNetwork (toyHolder j i))
    · right
      rcases C122_hash_identifies hash (anyKey true) _ _
        (toyNetwork_typed _ (toyHolder_typed true i j hi hj h))
        (toyNetwork_typed _ (toyHolder_typed true j i hj hi h.symm)) he with h' | h'
      · exfalso
        simp [toyNetwork, toyHolder] at h'
        exact h h'.1
      · exact h'
    · exact Or.inl he

/-- At most one entry. -/
def Small {α : Type} (l : List α) : Prop := l.length ≤ 1

/-- Every map in the account has at most one entry. -/
def SmallAccount (a : AccountData) : Prop :=
  Small a.assetParams ∧ Small a.assets ∧ Small a.appLocalStates ∧ Small a.appParams ∧
  (∀ e ∈ a.appLocalStates, Small e.2.keyValue) ∧ ∀ e ∈ a.appParams, Small e.2.globalState

theorem sameMap_small {κ ν : Type} {V : ν → ν → Prop} {l l' : List (κ × ν)} (h : SameMap V l l') (hl : Small l)
    (hV : ∀ a ∈ l, ∀ y, V a.2 y → a.2 = y) : l = l' := by
  obtain ⟨m, hm, hf⟩ := h
  have hlen := hf.length_eq
  have hlen' := hm.length_eq
  rw [Small] at hl
  match l, m, l', hf with
  | [], [], [], _ => rfl
  | [], [], _ :: _, _ => simp at hlen'
  | [a], [b], [c], .cons hab _ =>
    have hbc : b = c := by simpa using hm
    subst hbc
    rw [show a = b from Prod.ext hab.1 (hV a (by simp) _ hab.2)]
  | [_], [_], [], _ => simp at hlen'
  | [_], [_], _ :: _ :: _, _ => simp at hlen'
  | _ :: _ :: _, _, _, _ => simp at hl

theorem sameAccount_small {a b : AccountData} (h : SameAccount a b) (hs : SmallAccount a) : a = b := by
  obtain ⟨h1, h2, h3, h4, h5⟩ := h
  obtain ⟨s1, s2, s3, s4, s5, s6⟩ := hs
  have e1 := sameMap_small h1 s1 fun _ _ _ h => h
  have e2 := sameMap_small h2 s2 fun _ _ _ h => h
  have e3 := sameMap_small h3 s3 fun e he y h => by
    have := sameMap_small h.2 (s5 e he) fun _ _ _ h => h
    obtain ⟨k, x1, x2⟩ := e
    obtain ⟨y1, y2⟩ := y
    simp only [SameLocal] at h this
    rw [h.1, this]
  have e4 := sameMap_small h4 s4 fun e he y h => by
    have := sameMap_small h.1 (s6 e he) fun _ _ _ h => h
    have h2 := h.2
    rw [← this] at h2
    exact h2
  rw [← e1, ← e2, ← e3, ← e4] at h5
  exact h5

/-- **C123**, what holds: the hash is a function of the genesis data alone as long as no map in it has more than one entry.
Missing: larger maps. -/
theorem C123_small_maps_partial (hash : Bytes → Bytes) (a b : Genesis) (h : SameGenesis a b)
    (hs : ∀ x ∈ a.allocation, SmallAccount x.state) : genesisHash hash a = genesisHash hash b := by
  obtain ⟨h1, h2⟩ := h
  have e : a.allocation = b.allocation := by
    clear h2
    generalize a.allocation = l at h1 hs
    generalize b.allocation = l' at h1
    induction h1 with
    | nil => rfl
    | cons hab _ ih =>
      rename_i x y l l' _
      rw [ih fun z hz => hs z (by simp [hz])]
      obtain ⟨x1, x2, x3⟩ := x
      obtain ⟨y1, y2, y3⟩ := y
      obtain ⟨h1, h2, h3⟩ := hab
      have := sameAccount_small h3 (hs ⟨x1, x2, x3⟩ (by simp))
      simp only at h1 h2 this
      rw [h1, h2, this]
  rw [← e] at h2
  exact congrArg _ h2

/-- The hypothesis holds for an account with one asset. -/
example : SmallAccount { toyHolder 1 2 with assets := [(1, ⟨5, false⟩)] } := by
  simp [SmallAccount, Small, toyHolder]

/-! ## C124: saved genesis data can be loaded -/

/-- **C124**: what loading the encoding of genesis data gives, exactly: the data, if there is no allocation or the library
hands out byte strings as arrays; otherwise a crash. -/
theorem C124_load_saved_partial (L : Lib) (g : Genesis) (h : GenesisTyped L g) (rest : Bytes) :
    loadFromFile L (some (enc (genesisMP g) ++ rest)) =
      if g.allocation = [] ∨ L.binAsSeq = true then .ok g else .panic := by
  have hd := decode_enc (genesisMP g) rest (fits_genesis h)
  simp only [loadFromFile, Res.ofOption, hd, bind, Res.bind, decGenesis_mp h]
  by_cases hc : g.allocation = [] ∨ L.binAsSeq = true
  · rw [if_pos hc, if_pos hc]
  · rw [if_neg hc, if_neg hc]

/-- C124 is violated: genesis data with an allocation cannot be loaded again, because addresses are written as byte
strings and read as arrays. -/
theorem C124_violated : ∃ (L : Lib) (g : Genesis), GenesisTyped L g ∧ L.binAsSeq = false ∧
    loadFromFile L (some (enc (genesisMP g))) = .panic := by
  have ht := toyNetwork_typed _ (toyHolder_typed false 1 2 (by decide) (by decide) (by decide))
  refine ⟨anyKey false, toyNetwork (toyHolder 1 2), ht, rfl, ?_⟩
  have := C124_load_saved_partial _ _ ht []
  rw [List.append_nil] at this
  rw [this]
  exact if_neg (by simp [toyNetwork, anyKey])

/-- Genesis data without allocations is loaded. -/
example (L : Lib) : loadFromFile L (some (enc (genesisMP { toyNetwork (toyHolder 1 2) with allocation := [] }))) =
    .ok { toyNetwork (toyHolder 1 2) with allocation := [] } := by
  have ht := toyNetwork_typed _ (toyHolder_typed true 1 2 (by decide) (by decide) (by decide))
  have := C124_load_saved_partial L { toyNetwork (toyHolder 1 2) with allocation := [] }
    ⟨ht.schemaId, ht.network, ⟨show 0 < u32Lim by decide, by simp⟩, ht.rewardsPool, ht.feeSink, ht.timestamp, ht.comment⟩ []
  rw [List.append_nil] at this
  rw [this]
  exact if_pos (Or.inl rfl)

/-! ## C125: files that cannot be loaded -/

/-- C125 is violated: a missing file crashes the caller, and so does every file that begins with a character of ASCII
text, in particular every JSON text (`genesis.json`). -/
theorem C125_violated (L : Lib) :
    loadFromFile L none = .panic ∧
    ∀ (c : UInt8) (rest : Bytes), c.toNat < 128 → loadFromFile L (some (c :: rest)) = .panic := by
  refine ⟨rfl, fun c rest hc => ?_⟩
  have : decode (c :: rest) = some (.uint c.toNat, rest) := by
    simp only [decode, List.length_cons, dec, decBody]
    rw [if_pos hc]
  simp [loadFromFile, Res.ofOption, this, bind, Res.bind, decGenesis, decStruct]

/-! ## C51 for whole accounts -/

/-- C51 on a whole account: each asset held, application created, extra page and application opted into is counted once,
each at its price. -/
theorem C51_account_data (a : AccountData) (p : Params) :
    minBalance a.account p = min (p.minBalance + p.minBalance * a.assets.length +
      p.appFlatParamsMinBalance * (a.appParams.length + a.totalExtraAppPages) +
      p.appFlatOptInMinBalance * a.appLocalStates.length +
      schemaPrice p a.totalAppSchema.numUint a.totalAppSchema.numByteSlice) (2 ^ 64 - 1) :=
  C51_exact a.account p

/-- A case of `C122_no_other_object`: where the digest is the text itself, no transaction has the digest of a genesis file. -/
example (b : Bytes) : genesisHash id (toyNetwork (toyHolder 7 8)) ≠ hashObj id ⟨.transaction, b⟩ := fun h =>
  let ⟨h1, h2⟩ := C122_no_other_object id _ _ (show HashId.transaction ≠ HashId.genesis by decide) h
  h1 h2

/-- A case of `C123_violated`: holdings 7 and 8 in the two orders; the digest is the text itself. -/
example : SameGenesis (toyNetwork (toyHolder 7 8)) (toyNetwork (toyHolder 8 7)) ∧
    genesisHash id (toyNetwork (toyHolder 7 8)) ≠ genesisHash id (toyNetwork (toyHolder 8 7)) := by
  obtain ⟨h1, h2⟩ := C123_violated id 7 8 (by decide) (by decide) (by decide)
  exact ⟨h1, h2.elim id fun h => absurd h.2 h.1⟩

end Verif.Props
