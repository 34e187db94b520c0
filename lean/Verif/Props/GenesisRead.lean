import Verif.Props.Genesis
import Verif.Props.CodecRead
/-!
# C125, C126: which files are read as genesis data

The specification says how genesis data may be written: every struct as the list of its values in order or as a map with
each field exactly once under its name or position, every variant by name or position, every map with the last of the entries for
each key. (The entries of a map are listed here in the order of the file; which order a hash map yields them in is not
determined.)
-/

namespace Verif.Props
open Verif Verif.Msgpack Verif.Codec Verif.Genesis Verif.HashId Verif.Tx Verif.Balance Verif.Consensus Verif.Teal

/-- A struct: its values in order, or each of them exactly once under its name or position. -/
def IsStruct (fs : List (List Char × (MP → Prop))) (v : MP) : Prop :=
  (∃ l, v = .arr l ∧ List.Forall₂ (fun f x => f.2 x) fs l) ∨
  (∃ kvs, v = .map kvs ∧ KeysOk kvs ∧ ∀ (i : Nat) f, fs[i]? = some f → Required kvs (some i) f.1 f.2)

/-- One of several variants: its name, or its place in the list. -/
def IsOneOf {α : Type} (table : List (α × List Char)) (a : α) (v : MP) : Prop :=
  ∃ (i : Nat) (n : List Char), table[i]? = some (a, n) ∧ (IsText (textBytes n) v ∨ v = .uint i)

/-- `LastWins es l`: `l` are those entries of `es` that no later entry with the same key replaces. -/
inductive LastWins {κ ν : Type} : List (κ × ν) → List (κ × ν) → Prop
  | nil : LastWins [] []
  | keep (k : κ) (x : ν) (es l : List (κ × ν)) (h : ∀ e ∈ es, e.1 ≠ k) (hl : LastWins es l) :
      LastWins ((k, x) :: es) ((k, x) :: l)
  | replaced (k : κ) (x : ν) (es l : List (κ × ν)) (h : ∃ e ∈ es, e.1 = k) (hl : LastWins es l) : LastWins ((k, x) :: es) l

/-- A map from keys to values. -/
def IsMap {κ ν : Type} (K : κ → MP → Prop) (V : ν → MP → Prop) (l : List (κ × ν)) (v : MP) : Prop :=
  ∃ kvs es, v = .map kvs ∧ List.Forall₂ (fun (e : κ × ν) p => K e.1 p.1 ∧ V e.2 p.2) es (mapPairs kvs) ∧ LastWins es l

/-- A value of an application. -/
def IsTeal (t : TealValue) (v : MP) : Prop :=
  IsStruct [
    (['t', 'e', 'a', 'l', '_', 't', 'y', 'p', 'e'], IsOneOf [(.bytes, ['B', 'y', 't', 'e', 's']), (.uint, ['U', 'i', 'n', 't'])] t.tealType),
    (['b', 'y', 't', 'e', 's'], IsBytes t.bytes),
    (['u', 'i', 'n', 't'], IsUint (2 ^ 64) t.uint)] v

/-- The amount of an asset. -/
def IsHolding (h : Holding) (v : MP) : Prop :=
  IsStruct [
    (['a', 'm', 'o', 'u', 'n', 't'], IsUint (2 ^ 64) h.amount),
    (['f', 'r', 'o', 'z', 'e', 'n'], IsBool h.frozen)] v

/-- The local state of an application. -/
def IsLocalState (s : LocalState) (v : MP) : Prop :=
  IsStruct [
    (['s', 'c', 'h', 'e', 'm', 'a'], IsSchema s.schema),
    (['k', 'e', 'y', '_', 'v', 'a', 'l', 'u', 'e'], IsMap IsString IsTeal s.keyValue)] v

/-- An application. -/
def IsAppParams (p : AppParams) (v : MP) : Prop :=
  IsStruct [
    (['a', 'p', 'p', 'r', 'o', 'v', 'a', 'l', '_', 'p', 'r', 'o', 'g', 'r', 'a', 'm'], IsBytes p.approvalProgram),
    (['c', 'l', 'e', 'a', 'r', '_', 's', 't', 'a', 't', 'e', '_', 'p', 'r', 'o', 'g', 'r', 'a', 'm'], IsBytes p.clearStateProgram),
    (['g', 'l', 'o', 'b', 'a', 'l', '_', 's', 't', 'a', 't', 'e'], IsMap IsString IsTeal p.globalState),
    (['s', 't', 'a', 't', 'e', '_', 's', 'c', 'h', 'e', 'm', 'a', 's'], IsStruct [
      (['l', 'o', 'c', 'a', 'l', '_', 's', 't', 'a', 't', 'e', '_', 's', 'c', 'h', 'e', 'm', 'a'], IsSchema p.localSchema),
      (['g', 'l', 'o', 'b', 'a', 'l', '_', 's', 't', 'a', 't', 'e', '_', 's', 'c', 'h', 'e', 'm', 'a'], IsSchema p.globalSchema)]),
    (['e', 'x', 't', 'r', 'a', '_', 'p', 'r', 'o', 'g', 'r', 'a', 'm', '_', 'p', 'a', 'g', 'e', 's'], IsUint (2 ^ 32) p.extraProgramPages)] v

/-- An account. -/
def IsAccount (L : Lib) (a : AccountData) (v : MP) : Prop :=
  IsStruct [
    (['s', 't', 'a', 't', 'u', 's'], IsOneOf [(.offline, ['O', 'f', 'f', 'l', 'i', 'n', 'e']), (.online, ['O', 'n', 'l', 'i', 'n', 'e']), (.notParticipating, ['N', 'o', 't', 'P', 'a', 'r', 't', 'i', 'c', 'i', 'p', 'a', 't', 'i', 'n', 'g'])] a.status),
    (['m', 'i', 'c', 'r', 'o', '_', 'a', 'l', 'g', 'o', 's'], IsUint (2 ^ 64) a.microAlgos),
    (['r', 'e', 'w', 'a', 'r', 'd', 's', '_', 'b', 'a', 's', 'e'], IsUint (2 ^ 64) a.rewardsBase),
    (['r', 'e', 'w', 'a', 'r', 'd', 'e', 'd', '_', 'm', 'i', 'c', 'r', 'o', '_', 'a', 'l', 'g', 'o', 's'], IsUint (2 ^ 64) a.rewarded),
    (['v', 'o', 't', 'e', '_', 'i', 'd'], IsPk L a.voteId),
    (['s', 'e', 'l', 'e', 'c', 't', 'i', 'o', 'n', '_', 'i', 'd'], IsArray 32 a.selectionId),
    (['v', 'o', 't', 'e', '_', 'f', 'i', 'r', 's', 't', '_', 'v', 'a', 'l', 'i', 'd'], IsUint (2 ^ 64) a.voteFirstValid),
    (['v', 'o', 't', 'e', '_', 'l', 'a', 's', 't', '_', 'v', 'a', 'l', 'i', 'd'], IsUint (2 ^ 64) a.voteLastValid),
    (['v', 'o', 't', 'e', '_', 'k', 'e', 'y', '_', 'd', 'i', 'l', 'u', 't', 'i', 'o', 'n'], IsUint (2 ^ 64) a.voteKeyDilution),
    (['a', 's', 's', 'e', 't', '_', 'p', 'a', 'r', 'a', 'm', 's'], IsMap (IsUint (2 ^ 64)) (IsAssetParams (IsAuth L)) a.assetParams),
    (['a', 's', 's', 'e', 't', 's'], IsMap (IsUint (2 ^ 64)) IsHolding a.assets),
    (['a', 'u', 't', 'h', '_', 'a', 'd', 'd', 'r'], IsAuth L a.authAddr),
    (['a', 'p', 'p', '_', 'l', 'o', 'c', 'a', 'l', '_', 's', 't', 'a', 't', 'e', 's'], IsMap (IsUint (2 ^ 64)) IsLocalState a.appLocalStates),
    (['a', 'p', 'p', '_', 'p', 'a', 'r', 'a', 'm', 's'], IsMap (IsUint (2 ^ 64)) IsAppParams a.appParams),
    (['t', 'o', 't', 'a', 'l', '_', 'a', 'p', 'p', '_', 's', 'c', 'h', 'e', 'm', 'a'], IsSchema a.totalAppSchema),
    (['t', 'o', 't', 'a', 'l', '_', 'e', 'x', 't', 'r', 'a', '_', 'a', 'p', 'p', '_', 'p', 'a', 'g', 'e', 's'], IsUint (2 ^ 32) a.totalExtraAppPages)] v

/-- An allocation. -/
def IsAllocation (L : Lib) (a : Allocation) (v : MP) : Prop :=
  IsStruct [
    (['a', 'd', 'd', 'r', 'e', 's', 's'], IsString a.address),
    (['c', 'o', 'm', 'm', 'e', 'n', 't'], IsString a.comment),
    (['s', 't', 'a', 't', 'e'], IsAccount L a.state)] v

/-- The protocol versions. -/
def versionTable : List (Version × List Char) :=
  [(.deprecatedV0, ['D', 'e', 'p', 'r', 'e', 'c', 'a', 't', 'e', 'd', 'V', '0']),
    (.deprecatedV1, ['D', 'e', 'p', 'r', 'e', 'c', 'a', 't', 'e', 'd', 'V', '1']),
    (.deprecatedV2, ['D', 'e', 'p', 'r', 'e', 'c', 'a', 't', 'e', 'd', 'V', '2']),
    (.deprecatedV3, ['D', 'e', 'p', 'r', 'e', 'c', 'a', 't', 'e', 'd', 'V', '3']),
    (.deprecatedV4, ['D', 'e', 'p', 'r', 'e', 'c', 'a', 't', 'e', 'd', 'V', '4']),
    (.deprecatedV5, ['D', 'e', 'p', 'r', 'e', 'c', 'a', 't', 'e', 'd', 'V', '5']),
    (.deprecatedV6, ['D', 'e', 'p', 'r', 'e', 'c', 'a', 't', 'e', 'd', 'V', '6']),
    (.v7, ['V', '7']),
    (.v8, ['V', '8']),
    (.v9, ['V', '9']),
    (.v10, ['V', '1', '0']),
    (.v11, ['V', '1', '1']),
    (.v12, ['V', '1', '2']),
    (.v13, ['V', '1', '3']),
    (.v14, ['V', '1', '4']),
    (.v15, ['V', '1', '5']),
    (.v16, ['V', '1', '6']),
    (.v17, ['V', '1', '7']),
    (.v18, ['V', '1', '8']),
    (.v19, ['V', '1', '9']),
    (.v20, ['V', '2', '0']),
    (.v21, ['V', '2', '1']),
    (.v22, ['V', '2', '2']),
    (.v23, ['V', '2', '3']),
    (.v24, ['V', '2', '4']),
    (.v25, ['V', '2', '5']),
    (.v26, ['V', '2', '6']),
    (.v27, ['V', '2', '7']),
    (.v28, ['V', '2', '8']),
    (.v29, ['V', '2', '9']),
    (.v30, ['V', '3', '0']),
    (.future, ['F', 'u', 't', 'u', 'r', 'e'])]

/-- Genesis data. -/
def IsGenesis (L : Lib) (g : Genesis) (v : MP) : Prop :=
  IsStruct [
    (['s', 'c', 'h', 'e', 'm', 'a', '_', 'i', 'd'], IsString g.schemaId),
    (['n', 'e', 't', 'w', 'o', 'r', 'k'], IsString g.network),
    (['p', 'r', 'o', 't', 'o'], IsOneOf versionTable g.proto),
    (['a', 'l', 'l', 'o', 'c', 'a', 't', 'i', 'o', 'n'], IsList (IsAllocation L) g.allocation),
    (['r', 'e', 'w', 'a', 'r', 'd', 's', '_', 'p', 'o', 'o', 'l'], IsString g.rewardsPool),
    (['f', 'e', 'e', '_', 's', 'i', 'n', 'k'], IsString g.feeSink),
    (['t', 'i', 'm', 'e', 's', 't', 'a', 'm', 'p'], IsUint (2 ^ 64) g.timestamp),
    (['c', 'o', 'm', 'm', 'e', 'n', 't'], IsString g.comment),
    (['d', 'e', 'v', '_', 'm', 'o', 'd', 'e'], IsBool g.devMode)] v

/-! ## The reader meets the specification -/

theorem named_eq (pos : Nat) (n : List Char) : ∀ kvs : List MP,
    named pos n kvs = ((mapPairs kvs).filter (fun e => isKey (some pos) (textBytes n) e.1)).map Prod.snd
  | [] => rfl
  | [_] => rfl
  | key :: v :: rest => by
    rw [named, mapPairs, List.filter_cons, named_eq pos n rest]
    have hn : asciiBytes n = textBytes n := rfl
    rw [hn]
    by_cases h : isKey (some pos) (textBytes n) key = true <;> simp [h]

theorem named_one_iff (pos : Nat) (n : List Char) (kvs : List MP) (v : MP) :
    named pos n kvs = [v] ↔ Given kvs (some pos) n v := by
  rw [named_eq, filter_key_one]

theorem fieldsAt_iff (kvs : List MP) (fs : List (List Char × (MP → Prop))) : ∀ pos : Nat,
    (∀ (i : Nat) f, fs[i]? = some f → Required kvs (some (pos + i)) f.1 f.2) ↔
      ∃ l, fieldsAt pos kvs (fs.map Prod.fst) = some l ∧ List.Forall₂ (fun f x => f.2 x) fs l := by
  induction fs with
  | nil => intro pos; simp [fieldsAt]
  | cons f fs ih =>
    intro pos
    have hs : (∀ (i : Nat) g, (f :: fs)[i]? = some g → Required kvs (some (pos + i)) g.1 g.2) ↔
        Required kvs (some pos) f.1 f.2 ∧
          ∀ (i : Nat) g, fs[i]? = some g → Required kvs (some (pos + 1 + i)) g.1 g.2 := by
      constructor
      · intro h
        refine ⟨h 0 f rfl, fun i g hg => ?_⟩
        have := h (i + 1) g hg
        rwa [Nat.add_comm i 1, ← Nat.add_assoc] at this
      · rintro ⟨h1, h2⟩ i g hg
        cases i with
        | zero => injection hg with hg; subst hg; exact h1
        | succ i =>
          have := h2 i g hg
          rwa [Nat.add_assoc, Nat.add_comm 1 i] at this
    rw [hs, ih (pos + 1), List.map_cons, fieldsAt]
    constructor
    · rintro ⟨⟨w, h1, h2⟩, l, h3, h4⟩
      refine ⟨w :: l, ?_, .cons h2 h4⟩
      rw [(named_one_iff _ _ _ _).2 h1, h3]
      rfl
    · rintro ⟨l, h, hf⟩
      obtain ⟨w, h1, h⟩ := Option.bind_eq_some_iff.1 h
      obtain ⟨l', h2, h⟩ := Option.bind_eq_some_iff.1 h
      injection h with h
      subst h
      cases hf with
      | cons a b =>
        refine ⟨⟨w, ?_, a⟩, l', h2, b⟩
        split at h1
        · rename_i w' hw
          injection h1 with h1
          subst h1
          exact (named_one_iff _ _ _ _).1 hw
        · cases h1

theorem isStruct_iff (fs : List (List Char × (MP → Prop))) (v : MP) :
    IsStruct fs v ↔ ∃ l, decStruct (fs.map Prod.fst) v = some l ∧ List.Forall₂ (fun f x => f.2 x) fs l := by
  have key : ∀ kvs, (∀ (i : Nat) f, fs[i]? = some f → Required kvs (some i) f.1 f.2) ↔
      ∃ l, fieldsAt 0 kvs (fs.map Prod.fst) = some l ∧ List.Forall₂ (fun f x => f.2 x) fs l := by
    intro kvs
    rw [← fieldsAt_iff kvs fs 0]
    simp only [Nat.zero_add]
  constructor
  · rintro (⟨l, rfl, hf⟩ | ⟨kvs, rfl, hk, h⟩)
    · exact ⟨l, decStruct_arr (by rw [List.length_map]; exact hf.length_eq.symm), hf⟩
    · obtain ⟨l, h1, h2⟩ := (key kvs).1 h
      refine ⟨l, ?_, h2⟩
      rw [decStruct, (checkKeys_iff kvs ()).2 hk]
      exact h1
  · rintro ⟨l, h, hf⟩
    cases v with
    | arr l' =>
      rw [decStruct] at h
      split at h
      · injection h with h
        subst h
        exact .inl ⟨_, rfl, hf⟩
      · cases h
    | map kvs =>
      rw [decStruct] at h
      obtain ⟨u, h1, h2⟩ := Option.bind_eq_some_iff.1 h
      exact .inr ⟨kvs, rfl, (checkKeys_iff kvs u).1 h1, (key kvs).2 ⟨l, h2, hf⟩⟩
    | _ => cases h

theorem find_iff {α : Type} {all : List α} {name : α → Bytes} (hn : (all.map name).Nodup) (s : Bytes) (a : α) :
    (all.find? fun x => name x = s) = some a ↔ a ∈ all ∧ name a = s := by
  induction all with
  | nil => simp
  | cons x l ih =>
    rw [List.map_cons, List.nodup_cons] at hn
    rw [List.find?_cons]
    by_cases h : name x = s
    · simp only [h, decide_true]
      constructor
      · intro e; injection e with e; subst e; exact ⟨by simp, h⟩
      · rintro ⟨h1, h2⟩
        rcases List.mem_cons.1 h1 with rfl | h1
        · rfl
        · exact absurd (List.mem_map.2 ⟨a, h1, h2.trans h.symm⟩) hn.1
    · simp only [h, decide_false]
      rw [ih hn.2]
      constructor
      · rintro ⟨h1, h2⟩; exact ⟨by simp [h1], h2⟩
      · rintro ⟨h1, h2⟩
        rcases List.mem_cons.1 h1 with rfl | h1
        · exact absurd h2 h
        · exact ⟨h1, h2⟩

theorem decVariant_iff {α : Type} {all : List α} {name : α → List Char} {table : List (α × List Char)}
    (ht : table = all.map fun a => (a, name a)) (hn : (all.map fun a => asciiBytes (name a)).Nodup) (v : MP) (a : α) :
    decVariant all name v = some a ↔ IsOneOf table a v := by
  subst ht
  have text : ∀ s, (all.find? fun x => asciiBytes (name x) = s) = some a ↔
      ∃ (i : Nat) (n : List Char), (all.map fun a => (a, name a))[i]? = some (a, n) ∧ textBytes n = s := by
    intro s
    rw [find_iff hn]
    constructor
    · rintro ⟨h1, h2⟩
      obtain ⟨i, hi⟩ := List.getElem?_of_mem h1
      exact ⟨i, name a, by rw [List.getElem?_map, hi]; rfl, h2⟩
    · rintro ⟨i, n, h1, h2⟩
      rw [List.getElem?_map] at h1
      obtain ⟨b, h3, h4⟩ := Option.map_eq_some_iff.1 h1
      injection h4 with h4 h5
      subst h4 h5
      exact ⟨List.mem_of_getElem? h3, h2⟩
  rw [IsOneOf]
  cases v with
  | str s =>
    rw [decVariant, text]
    simp only [IsText, MP.str.injEq, reduceCtorEq, or_false]
    constructor <;> rintro ⟨i, n, h1, h2⟩ <;> exact ⟨i, n, h1, h2.symm⟩
  | bin s =>
    rw [decVariant, text]
    simp only [IsText, MP.bin.injEq, reduceCtorEq, or_false, false_or]
    constructor <;> rintro ⟨i, n, h1, h2⟩ <;> exact ⟨i, n, h1, h2.symm⟩
  | uint k =>
    rw [decVariant]
    simp only [IsText, MP.uint.injEq, reduceCtorEq, or_false, false_or]
    constructor
    · intro h; exact ⟨k, name a, by rw [List.getElem?_map, h]; rfl, rfl⟩
    · rintro ⟨i, n, h1, rfl⟩
      rw [List.getElem?_map] at h1
      obtain ⟨b, h3, h4⟩ := Option.map_eq_some_iff.1 h1
      injection h4 with h4 h5
      rw [← h4]; exact h3
  | _ => simp [decVariant, IsText]

theorem lastWins_keys {κ ν : Type} {es l : List (κ × ν)} (h : LastWins es l) (k : κ) :
    (∃ e ∈ es, e.1 = k) ↔ k ∈ l.map Prod.fst := by
  induction h with
  | nil => simp
  | keep k' x es l h hl ih =>
    rw [List.map_cons, List.mem_cons, ← ih]
    simp [eq_comm]
  | replaced k' x es l h hl ih =>
    rw [← ih]
    constructor
    · rintro ⟨e, he, rfl⟩
      rcases List.mem_cons.1 he with rfl | he
      · exact h
      · exact ⟨e, he, rfl⟩
    · rintro ⟨e, he, rfl⟩
      exact ⟨e, by simp [he], rfl⟩

theorem decMap_iff {κ ν : Type} [DecidableEq κ] {fk : MP → Option κ} {fv : MP → Option ν} {K : κ → MP → Prop}
    {V : ν → MP → Prop} (hk : ∀ v x, fk v = some x ↔ K x v) (hv : ∀ v x, fv v = some x ↔ V x v) (v : MP)
    (l : List (κ × ν)) : decMap fk fv v = some l ↔ IsMap K V l v := by
  have key : ∀ kvs (l : List (κ × ν)), decEntries fk fv kvs = some l ↔
      ∃ es, List.Forall₂ (fun (e : κ × ν) p => K e.1 p.1 ∧ V e.2 p.2) es (mapPairs kvs) ∧ LastWins es l := by
    intro kvs
    induction kvs using mapPairs.induct with
    | case1 k v rest ih =>
      intro l
      rw [decEntries, mapPairs]
      constructor
      · intro h
        obtain ⟨a, h1, h⟩ := Option.bind_eq_some_iff.1 h
        obtain ⟨b, h2, h⟩ := Option.bind_eq_some_iff.1 h
        obtain ⟨l', h3, h⟩ := Option.bind_eq_some_iff.1 h
        obtain ⟨es, h4, h5⟩ := (ih l').1 h3
        injection h with h
        refine ⟨(a, b) :: es, .cons ⟨(hk _ _).1 h1, (hv _ _).1 h2⟩ h4, ?_⟩
        split at h
        · rename_i hm
          subst h
          exact .replaced a b es l' ((lastWins_keys h5 a).2 hm) h5
        · rename_i hm
          subst h
          exact .keep a b es l' (fun e he e1 => hm ((lastWins_keys h5 a).1 ⟨e, he, e1⟩)) h5
      · rintro ⟨es, hf, hl⟩
        cases hf with
        | cons hab hf =>
          rename_i e es
          obtain ⟨a, b⟩ := e
          refine Option.bind_eq_some_iff.2 ⟨a, (hk _ _).2 hab.1, ?_⟩
          refine Option.bind_eq_some_iff.2 ⟨b, (hv _ _).2 hab.2, ?_⟩
          cases hl with
          | keep _ _ _ l' h hl =>
            refine Option.bind_eq_some_iff.2 ⟨l', (ih l').2 ⟨es, hf, hl⟩, ?_⟩
            exact congrArg some (if_neg fun hm => by
              obtain ⟨e, he, h1⟩ := (lastWins_keys hl a).2 hm
              exact h e he h1)
          | replaced _ _ _ _ h hl =>
            refine Option.bind_eq_some_iff.2 ⟨l, (ih l).2 ⟨es, hf, hl⟩, ?_⟩
            exact congrArg some (if_pos ((lastWins_keys hl a).1 h))
    | case2 kvs h =>
      intro l
      have e1 : decEntries fk fv kvs = some [] := by
        match kvs, h with
        | [], _ => rfl
        | [_], _ => rfl
        | a :: b :: r, h => exact absurd rfl (h a b r)
      have e2 : mapPairs kvs = [] := by
        match kvs, h with
        | [], _ => rfl
        | [_], _ => rfl
        | a :: b :: r, h => exact absurd rfl (h a b r)
      rw [e1, e2]
      constructor
      · intro h; injection h with h; subst h; exact ⟨[], .nil, .nil⟩
      · rintro ⟨es, hf, hl⟩
        cases hf
        cases hl
        rfl
  cases v with
  | map kvs =>
    rw [decMap, key, IsMap]
    constructor
    · rintro ⟨es, h⟩; exact ⟨kvs, es, rfl, h⟩
    · rintro ⟨_, es, e, h⟩; injection e with e; subst e; exact ⟨es, h⟩
  | _ => simp [decMap, IsMap]

theorem decTealType_iff (v : MP) (t : TealType) :
    decTealType v = some t ↔ IsOneOf [(.bytes, ['B', 'y', 't', 'e', 's']), (.uint, ['U', 'i', 'n', 't'])] t v :=
  decVariant_iff rfl (by decide +kernel) v t

theorem decTealValue_iff (v : MP) (x : TealValue) : decTealValue v = some x ↔ IsTeal x v := by
  obtain ⟨x1, x2, x3⟩ := x
  rw [IsTeal, isStruct_iff, decTealValue]
  constructor
  · intro h
    obtain ⟨l, hl, h⟩ := Option.bind_eq_some_iff.1 h
    split at h
    · obtain ⟨_, a1, h⟩ := Option.bind_eq_some_iff.1 h
      obtain ⟨_, a2, h⟩ := Option.bind_eq_some_iff.1 h
      obtain ⟨_, a3, h⟩ := Option.bind_eq_some_iff.1 h
      injection h with e
      injection e with f1 f2 f3
      subst f1 f2 f3
      refine ⟨_, hl, ?_⟩
      refine .cons ((decTealType_iff _ _).1 a1) ?_
      refine .cons ((decBytes_iff _ _).1 a2) ?_
      refine .cons ((decUint_iff _ _ _).1 a3) ?_
      exact .nil
    · cases h
  · rintro ⟨l, hl, hf⟩
    refine Option.bind_eq_some_iff.2 ⟨l, hl, ?_⟩
    obtain _ | ⟨a1, hf⟩ := hf
    obtain _ | ⟨a2, hf⟩ := hf
    obtain _ | ⟨a3, hf⟩ := hf
    cases hf
    refine Option.bind_eq_some_iff.2 ⟨_, (decTealType_iff _ _).2 a1, ?_⟩
    refine Option.bind_eq_some_iff.2 ⟨_, (decBytes_iff _ _).2 a2, ?_⟩
    refine Option.bind_eq_some_iff.2 ⟨_, (decUint_iff _ _ _).2 a3, ?_⟩
    rfl

theorem decKeyValue_iff (v : MP) (l : KeyValue) : decKeyValue v = some l ↔ IsMap IsString IsTeal l v :=
  decMap_iff decStr_iff decTealValue_iff v l

theorem decHolding_iff (v : MP) (x : Holding) : decHolding v = some x ↔ IsHolding x v := by
  obtain ⟨x1, x2⟩ := x
  rw [IsHolding, isStruct_iff, decHolding]
  constructor
  · intro h
    obtain ⟨l, hl, h⟩ := Option.bind_eq_some_iff.1 h
    split at h
    · obtain ⟨_, a1, h⟩ := Option.bind_eq_some_iff.1 h
      obtain ⟨_, a2, h⟩ := Option.bind_eq_some_iff.1 h
      injection h with e
      injection e with f1 f2
      subst f1 f2
      refine ⟨_, hl, ?_⟩
      refine .cons ((decUint_iff _ _ _).1 a1) ?_
      refine .cons ((decBool_iff _ _).1 a2) ?_
      exact .nil
    · cases h
  · rintro ⟨l, hl, hf⟩
    refine Option.bind_eq_some_iff.2 ⟨l, hl, ?_⟩
    obtain _ | ⟨a1, hf⟩ := hf
    obtain _ | ⟨a2, hf⟩ := hf
    cases hf
    refine Option.bind_eq_some_iff.2 ⟨_, (decUint_iff _ _ _).2 a1, ?_⟩
    refine Option.bind_eq_some_iff.2 ⟨_, (decBool_iff _ _).2 a2, ?_⟩
    rfl

theorem decLocalState_iff (v : MP) (x : LocalState) : decLocalState v = some x ↔ IsLocalState x v := by
  obtain ⟨x1, x2⟩ := x
  rw [IsLocalState, isStruct_iff, decLocalState]
  constructor
  · intro h
    obtain ⟨l, hl, h⟩ := Option.bind_eq_some_iff.1 h
    split at h
    · obtain ⟨_, a1, h⟩ := Option.bind_eq_some_iff.1 h
      obtain ⟨_, a2, h⟩ := Option.bind_eq_some_iff.1 h
      injection h with e
      injection e with f1 f2
      subst f1 f2
      refine ⟨_, hl, ?_⟩
      refine .cons ((decSchema_iff _ _).1 a1) ?_
      refine .cons ((decKeyValue_iff _ _).1 a2) ?_
      exact .nil
    · cases h
  · rintro ⟨l, hl, hf⟩
    refine Option.bind_eq_some_iff.2 ⟨l, hl, ?_⟩
    obtain _ | ⟨a1, hf⟩ := hf
    obtain _ | ⟨a2, hf⟩ := hf
    cases hf
    refine Option.bind_eq_some_iff.2 ⟨_, (decSchema_iff _ _).2 a1, ?_⟩
    refine Option.bind_eq_some_iff.2 ⟨_, (decKeyValue_iff _ _).2 a2, ?_⟩
    rfl

/-- The two schemas of an application. -/
def IsSchemas (x : Schema × Schema) (v : MP) : Prop :=
  IsStruct [
    (['l', 'o', 'c', 'a', 'l', '_', 's', 't', 'a', 't', 'e', '_', 's', 'c', 'h', 'e', 'm', 'a'], IsSchema x.1),
    (['g', 'l', 'o', 'b', 'a', 'l', '_', 's', 't', 'a', 't', 'e', '_', 's', 'c', 'h', 'e', 'm', 'a'], IsSchema x.2)] v

theorem decSchemas_iff (v : MP) (x : Schema × Schema) : decSchemas v = some x ↔ IsSchemas x v := by
  obtain ⟨x1, x2⟩ := x
  rw [IsSchemas, isStruct_iff, decSchemas]
  constructor
  · intro h
    obtain ⟨l, hl, h⟩ := Option.bind_eq_some_iff.1 h
    split at h
    · obtain ⟨_, a1, h⟩ := Option.bind_eq_some_iff.1 h
      obtain ⟨_, a2, h⟩ := Option.bind_eq_some_iff.1 h
      injection h with e
      injection e with f1 f2
      subst f1 f2
      refine ⟨_, hl, ?_⟩
      refine .cons ((decSchema_iff _ _).1 a1) ?_
      refine .cons ((decSchema_iff _ _).1 a2) ?_
      exact .nil
    · cases h
  · rintro ⟨l, hl, hf⟩
    refine Option.bind_eq_some_iff.2 ⟨l, hl, ?_⟩
    obtain _ | ⟨a1, hf⟩ := hf
    obtain _ | ⟨a2, hf⟩ := hf
    cases hf
    refine Option.bind_eq_some_iff.2 ⟨_, (decSchema_iff _ _).2 a1, ?_⟩
    refine Option.bind_eq_some_iff.2 ⟨_, (decSchema_iff _ _).2 a2, ?_⟩
    rfl

theorem decAppParams_iff (v : MP) (x : AppParams) : decAppParams v = some x ↔ IsAppParams x v := by
  obtain ⟨x1, x2, x3, x4, x5, x6⟩ := x
  rw [IsAppParams, isStruct_iff, decAppParams]
  constructor
  · intro h
    obtain ⟨l, hl, h⟩ := Option.bind_eq_some_iff.1 h
    split at h
    · obtain ⟨_, a1, h⟩ := Option.bind_eq_some_iff.1 h
      obtain ⟨_, a2, h⟩ := Option.bind_eq_some_iff.1 h
      obtain ⟨_, a3, h⟩ := Option.bind_eq_some_iff.1 h
      obtain ⟨_, a4, h⟩ := Option.bind_eq_some_iff.1 h
      obtain ⟨_, a5, h⟩ := Option.bind_eq_some_iff.1 h
      injection h with e
      injection e with f1 f2 f3 f4 f5 f6
      subst f1 f2 f3 f4 f5 f6
      refine ⟨_, hl, ?_⟩
      refine .cons ((decBytes_iff _ _).1 a1) ?_
      refine .cons ((decBytes_iff _ _).1 a2) ?_
      refine .cons ((decKeyValue_iff _ _).1 a3) ?_
      refine .cons ((decSchemas_iff _ _).1 a4) ?_
      refine .cons ((decUint_iff _ _ _).1 a5) ?_
      exact .nil
    · cases h
  · rintro ⟨l, hl, hf⟩
    refine Option.bind_eq_some_iff.2 ⟨l, hl, ?_⟩
    obtain _ | ⟨a1, hf⟩ := hf
    obtain _ | ⟨a2, hf⟩ := hf
    obtain _ | ⟨a3, hf⟩ := hf
    obtain _ | ⟨a4, hf⟩ := hf
    obtain _ | ⟨a5, hf⟩ := hf
    cases hf
    refine Option.bind_eq_some_iff.2 ⟨_, (decBytes_iff _ _).2 a1, ?_⟩
    refine Option.bind_eq_some_iff.2 ⟨_, (decBytes_iff _ _).2 a2, ?_⟩
    refine Option.bind_eq_some_iff.2 ⟨_, (decKeyValue_iff _ _).2 a3, ?_⟩
    refine Option.bind_eq_some_iff.2 ⟨(x4, x5), (decSchemas_iff _ _).2 a4, ?_⟩
    refine Option.bind_eq_some_iff.2 ⟨_, (decUint_iff _ _ _).2 a5, ?_⟩
    rfl

theorem decStatus_iff (v : MP) (s : Status) :
    decVariant [.offline, .online, .notParticipating] statusName v = some s ↔
      IsOneOf [(.offline, ['O', 'f', 'f', 'l', 'i', 'n', 'e']), (.online, ['O', 'n', 'l', 'i', 'n', 'e']), (.notParticipating, ['N', 'o', 't', 'P', 'a', 'r', 't', 'i', 'c', 'i', 'p', 'a', 't', 'i', 'n', 'g'])] s v :=
  decVariant_iff rfl (by decide +kernel) v s

theorem decAccount_iff (L : Lib) (v : MP) (x : AccountData) : decAccount L v = some x ↔ IsAccount L x v := by
  obtain ⟨x1, x2, x3, x4, x5, x6, x7, x8, x9, x10, x11, x12, x13, x14, x15, x16⟩ := x
  rw [IsAccount, isStruct_iff, decAccount]
  constructor
  · intro h
    obtain ⟨l, hl, h⟩ := Option.bind_eq_some_iff.1 h
    split at h
    · obtain ⟨_, a1, h⟩ := Option.bind_eq_some_iff.1 h
      obtain ⟨_, a2, h⟩ := Option.bind_eq_some_iff.1 h
      obtain ⟨_, a3, h⟩ := Option.bind_eq_some_iff.1 h
      obtain ⟨_, a4, h⟩ := Option.bind_eq_some_iff.1 h
      obtain ⟨_, a5, h⟩ := Option.bind_eq_some_iff.1 h
      obtain ⟨_, a6, h⟩ := Option.bind_eq_some_iff.1 h
      obtain ⟨_, a7, h⟩ := Option.bind_eq_some_iff.1 h
      obtain ⟨_, a8, h⟩ := Option.bind_eq_some_iff.1 h
      obtain ⟨_, a9, h⟩ := Option.bind_eq_some_iff.1 h
      obtain ⟨_, a10, h⟩ := Option.bind_eq_some_iff.1 h
      obtain ⟨_, a11, h⟩ := Option.bind_eq_some_iff.1 h
      obtain ⟨_, a12, h⟩ := Option.bind_eq_some_iff.1 h
      obtain ⟨_, a13, h⟩ := Option.bind_eq_some_iff.1 h
      obtain ⟨_, a14, h⟩ := Option.bind_eq_some_iff.1 h
      obtain ⟨_, a15, h⟩ := Option.bind_eq_some_iff.1 h
      obtain ⟨_, a16, h⟩ := Option.bind_eq_some_iff.1 h
      injection h with e
      injection e with f1 f2 f3 f4 f5 f6 f7 f8 f9 f10 f11 f12 f13 f14 f15 f16
      subst f1 f2 f3 f4 f5 f6 f7 f8 f9 f10 f11 f12 f13 f14 f15 f16
      refine ⟨_, hl, ?_⟩
      refine .cons ((decStatus_iff _ _).1 a1) ?_
      refine .cons ((decUint_iff _ _ _).1 a2) ?_
      refine .cons ((decUint_iff _ _ _).1 a3) ?_
      refine .cons ((decUint_iff _ _ _).1 a4) ?_
      refine .cons ((decPk_iff L _ _).1 a5) ?_
      refine .cons ((decArr_iff 32 _ _).1 a6) ?_
      refine .cons ((decUint_iff _ _ _).1 a7) ?_
      refine .cons ((decUint_iff _ _ _).1 a8) ?_
      refine .cons ((decUint_iff _ _ _).1 a9) ?_
      refine .cons ((decMap_iff (decUint_iff _) (decAssetParams_iff (decAddrDirect_iff L)) _ _).1 a10) ?_
      refine .cons ((decMap_iff (decUint_iff _) decHolding_iff _ _).1 a11) ?_
      refine .cons ((decAddrDirect_iff L _ _).1 a12) ?_
      refine .cons ((decMap_iff (decUint_iff _) decLocalState_iff _ _).1 a13) ?_
      refine .cons ((decMap_iff (decUint_iff _) decAppParams_iff _ _).1 a14) ?_
      refine .cons ((decSchema_iff _ _).1 a15) ?_
      refine .cons ((decUint_iff _ _ _).1 a16) ?_
      exact .nil
    · cases h
  · rintro ⟨l, hl, hf⟩
    refine Option.bind_eq_some_iff.2 ⟨l, hl, ?_⟩
    obtain _ | ⟨a1, hf⟩ := hf
    obtain _ | ⟨a2, hf⟩ := hf
    obtain _ | ⟨a3, hf⟩ := hf
    obtain _ | ⟨a4, hf⟩ := hf
    obtain _ | ⟨a5, hf⟩ := hf
    obtain _ | ⟨a6, hf⟩ := hf
    obtain _ | ⟨a7, hf⟩ := hf
    obtain _ | ⟨a8, hf⟩ := hf
    obtain _ | ⟨a9, hf⟩ := hf
    obtain _ | ⟨a10, hf⟩ := hf
    obtain _ | ⟨a11, hf⟩ := hf
    obtain _ | ⟨a12, hf⟩ := hf
    obtain _ | ⟨a13, hf⟩ := hf
    obtain _ | ⟨a14, hf⟩ := hf
    obtain _ | ⟨a15, hf⟩ := hf
    obtain _ | ⟨a16, hf⟩ := hf
    cases hf
    refine Option.bind_eq_some_iff.2 ⟨_, (decStatus_iff _ _).2 a1, ?_⟩
    refine Option.bind_eq_some_iff.2 ⟨_, (decUint_iff _ _ _).2 a2, ?_⟩
    refine Option.bind_eq_some_iff.2 ⟨_, (decUint_iff _ _ _).2 a3, ?_⟩
    refine Option.bind_eq_some_iff.2 ⟨_, (decUint_iff _ _ _).2 a4, ?_⟩
    refine Option.bind_eq_some_iff.2 ⟨_, (decPk_iff L _ _).2 a5, ?_⟩
    refine Option.bind_eq_some_iff.2 ⟨_, (decArr_iff 32 _ _).2 a6, ?_⟩
    refine Option.bind_eq_some_iff.2 ⟨_, (decUint_iff _ _ _).2 a7, ?_⟩
    refine Option.bind_eq_some_iff.2 ⟨_, (decUint_iff _ _ _).2 a8, ?_⟩
    refine Option.bind_eq_some_iff.2 ⟨_, (decUint_iff _ _ _).2 a9, ?_⟩
    refine Option.bind_eq_some_iff.2 ⟨_, (decMap_iff (decUint_iff _) (decAssetParams_iff (decAddrDirect_iff L)) _ _).2 a10, ?_⟩
    refine Option.bind_eq_some_iff.2 ⟨_, (decMap_iff (decUint_iff _) decHolding_iff _ _).2 a11, ?_⟩
    refine Option.bind_eq_some_iff.2 ⟨_, (decAddrDirect_iff L _ _).2 a12, ?_⟩
    refine Option.bind_eq_some_iff.2 ⟨_, (decMap_iff (decUint_iff _) decLocalState_iff _ _).2 a13, ?_⟩
    refine Option.bind_eq_some_iff.2 ⟨_, (decMap_iff (decUint_iff _) decAppParams_iff _ _).2 a14, ?_⟩
    refine Option.bind_eq_some_iff.2 ⟨_, (decSchema_iff _ _).2 a15, ?_⟩
    refine Option.bind_eq_some_iff.2 ⟨_, (decUint_iff _ _ _).2 a16, ?_⟩
    rfl

theorem decAllocation_iff (L : Lib) (v : MP) (x : Allocation) : decAllocation L v = some x ↔ IsAllocation L x v := by
  obtain ⟨x1, x2, x3⟩ := x
  rw [IsAllocation, isStruct_iff, decAllocation]
  constructor
  · intro h
    obtain ⟨l, hl, h⟩ := Option.bind_eq_some_iff.1 h
    split at h
    · obtain ⟨_, a1, h⟩ := Option.bind_eq_some_iff.1 h
      obtain ⟨_, a2, h⟩ := Option.bind_eq_some_iff.1 h
      obtain ⟨_, a3, h⟩ := Option.bind_eq_some_iff.1 h
      injection h with e
      injection e with f1 f2 f3
      subst f1 f2 f3
      refine ⟨_, hl, ?_⟩
      refine .cons ((decStr_iff _ _).1 a1) ?_
      refine .cons ((decStr_iff _ _).1 a2) ?_
      refine .cons ((decAccount_iff L _ _).1 a3) ?_
      exact .nil
    · cases h
  · rintro ⟨l, hl, hf⟩
    refine Option.bind_eq_some_iff.2 ⟨l, hl, ?_⟩
    obtain _ | ⟨a1, hf⟩ := hf
    obtain _ | ⟨a2, hf⟩ := hf
    obtain _ | ⟨a3, hf⟩ := hf
    cases hf
    refine Option.bind_eq_some_iff.2 ⟨_, (decStr_iff _ _).2 a1, ?_⟩
    refine Option.bind_eq_some_iff.2 ⟨_, (decStr_iff _ _).2 a2, ?_⟩
    refine Option.bind_eq_some_iff.2 ⟨_, (decAccount_iff L _ _).2 a3, ?_⟩
    rfl

theorem decVersion_iff (v : MP) (p : Version) : decVariant Version.all versionName v = some p ↔ IsOneOf versionTable p v :=
  decVariant_iff rfl (by decide +kernel) v p

theorem decGenesis_iff (L : Lib) (v : MP) (x : Genesis) : decGenesis L v = some x ↔ IsGenesis L x v := by
  obtain ⟨x1, x2, x3, x4, x5, x6, x7, x8, x9⟩ := x
  rw [IsGenesis, isStruct_iff, decGenesis]
  constructor
  · intro h
    obtain ⟨l, hl, h⟩ := Option.bind_eq_some_iff.1 h
    split at h
    · obtain ⟨_, a1, h⟩ := Option.bind_eq_some_iff.1 h
      obtain ⟨_, a2, h⟩ := Option.bind_eq_some_iff.1 h
      obtain ⟨_, a3, h⟩ := Option.bind_eq_some_iff.1 h
      obtain ⟨_, a4, h⟩ := Option.bind_eq_some_iff.1 h
      obtain ⟨_, a5, h⟩ := Option.bind_eq_some_iff.1 h
      obtain ⟨_, a6, h⟩ := Option.bind_eq_some_iff.1 h
      obtain ⟨_, a7, h⟩ := Option.bind_eq_some_iff.1 h
      obtain ⟨_, a8, h⟩ := Option.bind_eq_some_iff.1 h
      obtain ⟨_, a9, h⟩ := Option.bind_eq_some_iff.1 h
      injection h with e
      injection e with f1 f2 f3 f4 f5 f6 f7 f8 f9
      subst f1 f2 f3 f4 f5 f6 f7 f8 f9
      refine ⟨_, hl, ?_⟩
      refine .cons ((decStr_iff _ _).1 a1) ?_
      refine .cons ((decStr_iff _ _).1 a2) ?_
      refine .cons ((decVersion_iff _ _).1 a3) ?_
      refine .cons ((decVec_iff (decAllocation_iff L) _ _).1 a4) ?_
      refine .cons ((decStr_iff _ _).1 a5) ?_
      refine .cons ((decStr_iff _ _).1 a6) ?_
      refine .cons ((decUint_iff _ _ _).1 a7) ?_
      refine .cons ((decStr_iff _ _).1 a8) ?_
      refine .cons ((decBool_iff _ _).1 a9) ?_
      exact .nil
    · cases h
  · rintro ⟨l, hl, hf⟩
    refine Option.bind_eq_some_iff.2 ⟨l, hl, ?_⟩
    obtain _ | ⟨a1, hf⟩ := hf
    obtain _ | ⟨a2, hf⟩ := hf
    obtain _ | ⟨a3, hf⟩ := hf
    obtain _ | ⟨a4, hf⟩ := hf
    obtain _ | ⟨a5, hf⟩ := hf
    obtain _ | ⟨a6, hf⟩ := hf
    obtain _ | ⟨a7, hf⟩ := hf
    obtain _ | ⟨a8, hf⟩ := hf
    obtain _ | ⟨a9, hf⟩ := hf
    cases hf
    refine Option.bind_eq_some_iff.2 ⟨_, (decStr_iff _ _).2 a1, ?_⟩
    refine Option.bind_eq_some_iff.2 ⟨_, (decStr_iff _ _).2 a2, ?_⟩
    refine Option.bind_eq_some_iff.2 ⟨_, (decVersion_iff _ _).2 a3, ?_⟩
    refine Option.bind_eq_some_iff.2 ⟨_, (decVec_iff (decAllocation_iff L) _ _).2 a4, ?_⟩
    refine Option.bind_eq_some_iff.2 ⟨_, (decStr_iff _ _).2 a5, ?_⟩
    refine Option.bind_eq_some_iff.2 ⟨_, (decStr_iff _ _).2 a6, ?_⟩
    refine Option.bind_eq_some_iff.2 ⟨_, (decUint_iff _ _ _).2 a7, ?_⟩
    refine Option.bind_eq_some_iff.2 ⟨_, (decStr_iff _ _).2 a8, ?_⟩
    refine Option.bind_eq_some_iff.2 ⟨_, (decBool_iff _ _).2 a9, ?_⟩
    rfl

/-- **C126**: loading succeeds exactly for the files that begin with a representation of genesis data, and returns this
data; on every other file, and without a file, it crashes. -/
theorem C126_loads (L : Lib) (file : Option Bytes) :
    (∀ g, loadFromFile L file = .ok g ↔ ∃ v p rest, file = some (p ++ rest) ∧ Repr v p ∧ IsGenesis L g v) ∧
    ((∀ g, loadFromFile L file ≠ .ok g) → loadFromFile L file = .panic) := by
  cases file with
  | none =>
    refine ⟨fun g => ?_, fun _ => rfl⟩
    constructor
    · intro h; cases h
    · rintro ⟨_, _, _, h, _⟩
      cases h
  | some bs =>
    have hl : loadFromFile L (some bs) = Res.ofOption ((decode bs).bind fun v => decGenesis L v.1) := by
      simp only [loadFromFile, Res.ofOption, bind, Res.bind]
      cases decode bs <;> rfl
    rw [hl]
    constructor
    · intro g
      have : Res.ofOption (ε := Unit) ((decode bs).bind fun v => decGenesis L v.1) = .ok g ↔
          ((decode bs).bind fun v => decGenesis L v.1) = some g := by
        cases (decode bs).bind fun v => decGenesis L v.1 <;> simp [Res.ofOption]
      rw [this, Option.bind_eq_some_iff]
      constructor
      · rintro ⟨⟨v, r⟩, h1, h2⟩
        obtain ⟨p, e, hp⟩ := (C119_reader _ _ _).1 h1
        exact ⟨v, p, r, by rw [e], hp, (decGenesis_iff L v g).1 h2⟩
      · rintro ⟨v, p, r, e, hp, h⟩
        injection e with e
        exact ⟨(v, r), (C119_reader _ _ _).2 ⟨p, e, hp⟩, (decGenesis_iff L v g).2 h⟩
    · intro h
      cases hd : (decode bs).bind fun v => decGenesis L v.1 with
      | none => rfl
      | some g => rw [hd] at h; exact absurd rfl (h g)

/-- **C126**: the encoder writes genesis data in a form of the specification whenever addresses can be read from byte
strings, so a file written by it is not ambiguous: every reading of it gives the same data. -/
theorem C126_written (L : Lib) (hL : L.binAsSeq = true) (g : Genesis) (h : GenesisTyped L g) :
    Repr (genesisMP g) (enc (genesisMP g)) ∧ ∀ g', IsGenesis L g' (genesisMP g) ↔ g' = g := by
  refine ⟨repr_enc _ (fits_genesis h), fun g' => ?_⟩
  rw [← decGenesis_iff, decGenesis_mp h, if_pos (Or.inr hL), Option.some.injEq, eq_comm]

/-- The entries whose keys are the positions of the values, from a first position on. -/
def byPosition : Nat → List MP → List MP
  | _, [] => []
  | i, v :: l => .uint i :: v :: byPosition (i + 1) l

theorem checkKeys_byPosition (i : Nat) (l : List MP) : checkKeys (byPosition i l) = some () := by
  induction l generalizing i with
  | nil => rfl
  | cons v l ih => rw [byPosition, checkKeys, if_pos (show keyOk (.uint i) = true from rfl), ih]

theorem named_byPosition (p : Nat) (n : List Char) (i : Nat) (l : List MP) (h : p < i) :
    named p n (byPosition i l) = [] := by
  induction l generalizing i with
  | nil => rfl
  | cons v l ih =>
    rw [byPosition, named, if_neg (by simp only [isKey, decide_eq_true_eq, Option.some.injEq]; omega), ih _ (by omega)]

theorem named_byPosition_at (p : Nat) (n : List Char) (i : Nat) (l : List MP) (h : i ≤ p) :
    named p n (byPosition i l) = (l[p - i]?).toList := by
  induction l generalizing i with
  | nil => simp [byPosition, named]
  | cons v l ih =>
    rw [byPosition, named]
    by_cases e : i = p
    · subst e
      rw [if_pos (by simp [isKey]), named_byPosition _ _ _ _ (Nat.lt_succ_self _)]
      simp
    · rw [if_neg (by simp only [isKey, decide_eq_true_eq, Option.some.injEq]; omega), ih _ (by omega)]
      have : p - i = (p - (i + 1)) + 1 := by omega
      rw [this, List.getElem?_cons_succ]

theorem fieldsAt_byPosition (kvs l : List MP) : ∀ (names : List (List Char)) (i : Nat),
    (∀ j n, j < names.length → named (i + j) n kvs = (l[j]?).toList) → l.length = names.length →
    fieldsAt i kvs names = some l := by
  intro names
  induction names generalizing l with
  | nil =>
    intro i _ hl
    rw [List.length_nil, List.length_eq_zero_iff] at hl
    subst hl
    rfl
  | cons n names ih =>
    intro i h hl
    cases l with
    | nil => cases hl
    | cons v l =>
      have h0 := h 0 n (by simp)
      rw [Nat.add_zero] at h0
      rw [fieldsAt, h0, ih l (i + 1) (fun j m hj => ?_) (by simpa using hl)]
      · rfl
      · have := h (j + 1) m (by simpa using hj)
        rw [List.getElem?_cons_succ] at this
        rw [← this]
        congr 1
        omega

theorem decStruct_byPosition (names : List (List Char)) (l : List MP) (h : l.length = names.length) :
    decStruct names (.map (byPosition 0 l)) = decStruct names (.arr l) := by
  rw [decStruct_arr h, decStruct, checkKeys_byPosition]
  refine fieldsAt_byPosition _ l names 0 (fun j n hj => ?_) h
  rw [Nat.zero_add, named_byPosition_at j n 0 l (Nat.zero_le _), Nat.sub_zero]

/-- **C126**, positions: the nine values of genesis data may also be given in a map, each under its position instead of
its name. -/
theorem C126_positions (L : Lib) (l : List MP) (h : l.length = 9) :
    decGenesis L (.map (byPosition 0 l)) = decGenesis L (.arr l) := by
  rw [decGenesis, decGenesis, decStruct_byPosition genesisNames l h]

/-- **C126**, keys: genesis data in a map with a key that is neither a text nor a position is refused. -/
theorem C126_other_keys_refused (L : Lib) (kvs : List MP) (e : MP × MP) (he : e ∈ mapPairs kvs)
    (h1 : ∀ s, ¬ IsText s e.1) (h2 : ∀ n, e.1 ≠ .uint n) : decGenesis L (.map kvs) = none := by
  have hc : checkKeys kvs = none := by
    cases h : checkKeys kvs with
    | none => rfl
    | some u =>
      rcases (checkKeys_iff kvs u).1 h e he with ⟨s, hs⟩ | ⟨n, hn⟩
      · exact absurd hs (h1 s)
      · exact absurd hn (h2 n)
  rw [decGenesis, decStruct, hc]
  rfl

/-- Genesis data with an unknown entry under `nil`. -/
example (L : Lib) (kvs : List MP) : decGenesis L (.map (.nil :: .nil :: kvs)) = none :=
  C126_other_keys_refused L _ (.nil, .nil) (by simp [mapPairs]) (fun s h => by rcases h with h | h <;> cases h)
    (fun n h => by cases h)

/-- **C125**, what holds: nothing but genesis data in its format is ever loaded as such. Missing: an error instead of a
crash for everything else. -/
theorem C125_only_genesis_partial (L : Lib) (file : Option Bytes) :
    loadFromFile L file = .panic ∨
      ∃ g v p rest, loadFromFile L file = .ok g ∧ file = some (p ++ rest) ∧ Repr v p ∧ IsGenesis L g v := by
  by_cases h : ∀ g, loadFromFile L file ≠ .ok g
  · exact .inl ((C126_loads L file).2 h)
  · right
    rw [not_forall] at h
    obtain ⟨g, h⟩ := h
    have h := Classical.not_not.1 h
    obtain ⟨v, p, rest, h'⟩ := ((C126_loads L file).1 g).1 h
    exact ⟨g, v, p, rest, h, h'⟩

/-- Of two entries for one key the second stays. -/
example : IsMap (IsUint (2 ^ 64)) IsBool [(7, true)] (.map [.uint 7, .bool false, .uint 7, .bool true]) :=
  ⟨_, [(7, false), (7, true)], rfl, .cons ⟨⟨rfl, by decide⟩, rfl⟩ (.cons ⟨⟨rfl, by decide⟩, rfl⟩ .nil),
    .replaced _ _ _ _ ⟨(7, true), by simp, rfl⟩ (.keep _ _ _ _ (by simp) .nil)⟩

/-- A protocol is given by name or by place. -/
example : IsOneOf versionTable .v7 (.str [86, 55]) ∧ IsOneOf versionTable .v7 (.uint 7) :=
  ⟨⟨7, ['V', '7'], rfl, .inl (.inl rfl)⟩, ⟨7, ['V', '7'], rfl, .inr rfl⟩⟩

/-- The specification can be met: by what is written for genesis data with an allocation. -/
example : IsGenesis (anyKey true) (toyNetwork (toyHolder 1 2)) (genesisMP (toyNetwork (toyHolder 1 2))) :=
  ((C126_written _ rfl _ (toyNetwork_typed _ (toyHolder_typed true 1 2 (by decide) (by decide) (by decide)))).2 _).2 rfl

/-- A case of `C126_positions`. -/
example (L : Lib) : decGenesis L (.map (byPosition 0 (List.replicate 9 (.str [97])))) = decGenesis L (.arr (List.replicate 9 (.str [97]))) :=
  C126_positions L _ rfl

end Verif.Props
