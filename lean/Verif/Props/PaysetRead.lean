import Verif.Props.BlockRead
/-!
# C133: which byte strings are read as paysets

The specification says how a payset may be written: structs without defaults as in C126, the two structs with defaults as
lists from whose end fields may be missing, or as maps from which these fields may be missing.
-/

namespace Verif.Props
open Verif Verif.Block Verif.Tx Verif.HashId Verif.Codec Verif.Msgpack Verif.Genesis

/-- A change of a value. -/
def IsValueDelta (d : Teal.ValueDelta) (v : MP) : Prop :=
  IsStruct [
    (['a', 'c', 't', 'i', 'o', 'n'], IsOneOf [(.setBytes, ['S', 'e', 't', 'B', 'y', 't', 'e', 's']), (.setUint, ['S', 'e', 't', 'U', 'i', 'n', 't']), (.delete, ['D', 'e', 'l', 'e', 't', 'e'])] d.action),
    (['b', 'y', 't', 'e', 's'], IsBytes d.bytes),
    (['u', 'i', 'n', 't'], IsUint (2 ^ 64) d.uint)] v

/-- The changes of a state, by key. -/
def IsStateDelta (l : List (Bytes × Teal.ValueDelta)) (v : MP) : Prop := IsMap IsString IsValueDelta l v

/-- A signed transaction with its effects, which may be left out if they are the default ones. -/
def IsWithEffects (L : Lib) (tx : SignedTx) (isDefault : Prop) (E : MP → Prop) (v : MP) : Prop :=
  (∃ a e, v = .arr (a :: e) ∧ ReadsStx L tx a ∧ ((e = [] ∧ isDefault) ∨ ∃ w, e = [w] ∧ E w)) ∨
  (∃ kvs, v = .map kvs ∧ KeysOk kvs ∧ Required kvs (some 0) ['t', 'x'] (ReadsStx L tx) ∧ Optional kvs (some 1) ['a', 'd'] isDefault E)

mutual
/-- The effects of a transaction. -/
def IsEffects (L : Lib) : ApplyData → MP → Prop
  | .mk f inner, v => IsStruct [
      (['c', 'l', 'o', 's', 'i', 'n', 'g', '_', 'a', 'm', 'o', 'u', 'n', 't'], IsUint (2 ^ 64) f.closingAmount),
      (['a', 's', 's', 'e', 't', '_', 'c', 'l', 'o', 's', 'i', 'n', 'g', '_', 'a', 'm', 'o', 'u', 'n', 't'], IsUint (2 ^ 64) f.assetClosingAmount),
      (['s', 'e', 'n', 'd', 'e', 'r', '_', 'r', 'e', 'w', 'a', 'r', 'd', 's'], IsUint (2 ^ 64) f.senderRewards),
      (['r', 'e', 'c', 'e', 'i', 'v', 'e', 'r', '_', 'r', 'e', 'w', 'a', 'r', 'd', 's'], IsUint (2 ^ 64) f.receiverRewards),
      (['c', 'l', 'o', 's', 'e', '_', 'r', 'e', 'w', 'a', 'r', 'd', 's'], IsUint (2 ^ 64) f.closeRewards),
      (['e', 'v', 'a', 'l', '_', 'd', 'e', 'l', 't', 'a'], IsStruct [
        (['g', 'l', 'o', 'b', 'a', 'l', '_', 'd', 'e', 'l', 't', 'a'], IsStateDelta f.globalDelta),
        (['l', 'o', 'c', 'a', 'l', '_', 'd', 'e', 'l', 't', 'a', 's'], IsMap (IsUint (2 ^ 64)) IsStateDelta f.localDeltas),
        (['l', 'o', 'g', 's'], IsList IsString f.logs),
        (['i', 'n', 'n', 'e', 'r', '_', 't', 'x', 's'], fun u => ∃ l, u = .arr l ∧ IsInner L inner l)]),
      (['c', 'o', 'n', 'f', 'i', 'g', '_', 'a', 's', 's', 'e', 't'], IsUint (2 ^ 64) f.configAsset),
      (['a', 'p', 'p', 'l', 'i', 'c', 'a', 't', 'i', 'o', 'n', '_', 'i', 'd'], IsUint (2 ^ 64) f.applicationId)] v
/-- The inner transactions, in order. -/
def IsInner (L : Lib) : InnerTxs → List MP → Prop
  | .nil, l => l = []
  | .cons tx ad rest, l => ∃ v l', l = v :: l' ∧
      IsWithEffects L tx (ad = .mk ⟨0, 0, 0, 0, 0, [], [], [], 0, 0⟩ .nil) (IsEffects L ad) v ∧ IsInner L rest l'
end

/-- A transaction with its effects. -/
def IsTxEffects (L : Lib) (s : Stad ApplyData) (v : MP) : Prop :=
  IsWithEffects L s.tx (s.ad = .mk ⟨0, 0, 0, 0, 0, [], [], [], 0, 0⟩ .nil) (IsEffects L s.ad) v

/-- A transaction in a block, with the two genesis flags, which are false if they are left out. -/
def IsInBlock (L : Lib) (s : Stib ApplyData) (v : MP) : Prop :=
  (∃ a e, v = .arr (a :: e) ∧ IsTxEffects L s.tx a ∧
    ((e = [] ∧ s.hasGenesisId = false ∧ s.hasGenesisHash = false) ∨
     (∃ b, e = [b] ∧ IsBool s.hasGenesisId b ∧ s.hasGenesisHash = false) ∨
     (∃ b c, e = [b, c] ∧ IsBool s.hasGenesisId b ∧ IsBool s.hasGenesisHash c))) ∨
  (∃ kvs, v = .map kvs ∧ KeysOk kvs ∧ Required kvs (some 0) ['t', 'x'] (IsTxEffects L s.tx) ∧
    Optional kvs (some 1) ['h', 'a', 's', '_', 'g', 'e', 'n', 'e', 's', 'i', 's', '_', 'i', 'd'] (s.hasGenesisId = false) (IsBool s.hasGenesisId) ∧
    Optional kvs (some 2) ['h', 'a', 's', '_', 'g', 'e', 'n', 'e', 's', 'i', 's', '_', 'h', 'a', 's', 'h'] (s.hasGenesisHash = false) (IsBool s.hasGenesisHash))

/-- A payset. -/
def IsPayset (L : Lib) (p : List (Stib ApplyData)) (v : MP) : Prop := IsList (IsInBlock L) p v

/-! ## The reader meets the specification -/

theorem depthList_mem {l : List MP} {x : MP} (h : x ∈ l) : depthMP x ≤ Codec.depthList l := by
  induction l with
  | nil => cases h
  | cons a l ih =>
    rw [Codec.depthList]
    rw [List.mem_cons] at h
    rcases h with rfl | h
    · exact Nat.le_max_left _ _
    · exact Nat.le_trans (ih h) (Nat.le_max_right _ _)

theorem named_mem (pos : Nat) (n : List Char) : ∀ (kvs : List MP) (v : MP), v ∈ named pos n kvs → v ∈ kvs
  | [], _, h => by cases h
  | [_], _, h => by cases h
  | key :: w :: rest, v, h => by
    rw [named] at h
    split at h
    · rw [List.mem_cons] at h
      rcases h with rfl | h
      · simp
      · exact List.mem_cons_of_mem _ (List.mem_cons_of_mem _ (named_mem pos n rest v h))
    · exact List.mem_cons_of_mem _ (List.mem_cons_of_mem _ (named_mem pos n rest v h))

theorem decStruct_depth {names : List (List Char)} {v : MP} {l : List MP} (h : decStruct names v = some l) :
    ∀ x ∈ l, depthMP x < depthMP v := by
  cases v with
  | arr l' =>
    rw [decStruct] at h
    split at h
    · injection h with h
      subst h
      intro x hx
      rw [depthMP]
      exact Nat.lt_succ_of_le (depthList_mem hx)
    · cases h
  | map kvs =>
    rw [decStruct] at h
    obtain ⟨_, _, h1⟩ := Option.bind_eq_some_iff.1 h
    clear h
    intro x hx
    rw [depthMP]
    refine Nat.lt_succ_of_le (depthList_mem ?_)
    generalize 0 = pos at h1
    induction names generalizing l pos with
    | nil =>
      injection h1 with h1
      subst h1
      cases hx
    | cons n names ih =>
      rw [fieldsAt] at h1
      obtain ⟨y, h3, h⟩ := Option.bind_eq_some_iff.1 h1
      obtain ⟨l', h2, h⟩ := Option.bind_eq_some_iff.1 h
      injection h with h
      subst h
      rw [List.mem_cons] at hx
      rcases hx with rfl | hx
      · split at h3
        · rename_i w hw
          injection h3 with h3
          subst h3
          exact named_mem pos n kvs _ (by rw [hw]; simp)
        · cases h3
      · exact ih hx _ h2
  | _ => cases h

theorem named_nil_iff (pos : Nat) (n : List Char) (kvs : List MP) : named pos n kvs = [] ↔ Absent kvs (some pos) n := by
  rw [named_eq, filter_key_nil]

theorem given_mem {kvs : List MP} {pos : Nat} {n : List Char} {v : MP} (h : Given kvs (some pos) n v) : v ∈ kvs :=
  named_mem pos n kvs v (by rw [(named_one_iff _ _ _ _).2 h]; simp)

theorem reqName_iff {α : Type} {f : MP → Option α} {P : α → MP → Prop} (pos : Nat) (n : List Char) (kvs : List MP)
    (hf : ∀ v ∈ kvs, ∀ x, f v = some x ↔ P x v) (x : α) :
    reqName pos n f kvs = some x ↔ Required kvs (some pos) n (P x) := by
  rw [reqName, Required]
  constructor
  · intro h
    split at h
    · rename_i v hv
      have hg := (named_one_iff _ _ _ _).1 hv
      exact ⟨v, hg, (hf _ (given_mem hg) _).1 h⟩
    · cases h
  · rintro ⟨v, h1, h2⟩
    rw [(named_one_iff _ _ _ _).2 h1]
    exact (hf _ (given_mem h1) _).2 h2

theorem optName_iff {α : Type} {f : MP → Option α} {P : α → MP → Prop} (pos : Nat) (n : List Char) (d : α)
    (kvs : List MP) (hf : ∀ v ∈ kvs, ∀ x, f v = some x ↔ P x v) (x : α) :
    optName pos n f d kvs = some x ↔ Optional kvs (some pos) n (x = d) (P x) := by
  rw [optName, Optional]
  constructor
  · intro h
    split at h
    · rename_i hv
      injection h with h
      exact .inl ⟨(named_nil_iff _ _ _).1 hv, h.symm⟩
    · rename_i v hv
      have hg := (named_one_iff _ _ _ _).1 hv
      exact .inr ⟨v, hg, (hf _ (given_mem hg) _).1 h⟩
    · cases h
  · rintro (⟨h1, h2⟩ | ⟨v, h1, h2⟩)
    · rw [(named_nil_iff _ _ _).2 h1, h2]
    · rw [(named_one_iff _ _ _ _).2 h1]
      exact (hf _ (given_mem h1) _).2 h2

theorem decValueDelta_iff (v : MP) (x : Teal.ValueDelta) : decValueDelta v = some x ↔ IsValueDelta x v := by
  obtain ⟨x1, x2, x3⟩ := x
  rw [IsValueDelta, isStruct_iff, decValueDelta]
  have hact : ∀ v a, decVariant [.setBytes, .setUint, .delete] actionName v = some a ↔
      IsOneOf [(.setBytes, ['S', 'e', 't', 'B', 'y', 't', 'e', 's']), (.setUint, ['S', 'e', 't', 'U', 'i', 'n', 't']), (.delete, ['D', 'e', 'l', 'e', 't', 'e'])] a v :=
    fun v a => decVariant_iff rfl (by decide +kernel) v a
  constructor
  · intro h
    obtain ⟨l, hl, h⟩ := Option.bind_eq_some_iff.1 h
    split at h
    · obtain ⟨_, a1, h⟩ := Option.bind_eq_some_iff.1 h
      obtain ⟨_, a2, h⟩ := Option.bind_eq_some_iff.1 h
      obtain ⟨_, a3, h⟩ := Option.bind_eq_some_iff.1 h
      injection h with e
      injection e with f1 f2 f3
      subst f1 f2 f3
      refine ⟨_, hl, ?_⟩
      refine .cons ((hact _ _).1 a1) ?_
      refine .cons ((decBytes_iff _ _).1 a2) ?_
      refine .cons ((decUint_iff _ _ _).1 a3) ?_
      exact .nil
    · cases h
  · rintro ⟨l, hl, hf⟩
    refine Option.bind_eq_some_iff.2 ⟨l, hl, ?_⟩
    obtain _ | ⟨a1, hf⟩ := hf
    obtain _ | ⟨a2, hf⟩ := hf
    obtain _ | ⟨a3, hf⟩ := hf
    cases hf
    refine Option.bind_eq_some_iff.2 ⟨_, (hact _ _).2 a1, ?_⟩
    refine Option.bind_eq_some_iff.2 ⟨_, (decBytes_iff _ _).2 a2, ?_⟩
    refine Option.bind_eq_some_iff.2 ⟨_, (decUint_iff _ _ _).2 a3, ?_⟩
    rfl

theorem decStateDelta_iff (v : MP) (l : List (Bytes × Teal.ValueDelta)) : decStateDelta v = some l ↔ IsStateDelta l v :=
  decMap_iff decStr_iff decValueDelta_iff v l

theorem decStadWith_iff (L : Lib) (ad : MP → Option ApplyData) (v : MP)
    (had : ∀ w, depthMP w < depthMP v → ∀ x, ad w = some x ↔ IsEffects L x w) (s : Stad ApplyData) :
    decStadWith L ad v = some s ↔ IsTxEffects L s v := by
  obtain ⟨s1, s2⟩ := s
  rw [IsTxEffects, IsWithEffects]
  constructor
  · intro h
    unfold decStadWith at h
    split at h
    · rename_i l
      simp only [bind, Option.bind_eq_some_iff, Prod.exists, next_iff, nextOr_iff] at h
      obtain ⟨x1, r1, ⟨a, rfl, a1⟩, x2, r2, h2, e⟩ := h
      split at e
      · rename_i he
        injection e with e
        injection e with f1 f2
        subst f1 f2
        rw [List.isEmpty_iff] at he
        subst he
        refine .inl ⟨a, r1, rfl, (decStx_iff _ _ _).1 a1, ?_⟩
        rcases h2 with ⟨rfl, e2, _⟩ | ⟨b, rfl, a2⟩
        · exact .inl ⟨rfl, e2⟩
        · exact .inr ⟨b, rfl, (had b (by rw [depthMP]; exact Nat.lt_succ_of_le (depthList_mem (by simp))) _).1 a2⟩
      · cases e
    · rename_i kvs
      have hk : ∀ w ∈ kvs, ∀ x, ad w = some x ↔ IsEffects L x w := fun w hw =>
        had w (by rw [depthMP]; exact Nat.lt_succ_of_le (depthList_mem hw))
      simp only [bind, Option.bind_eq_some_iff, checkKeys_iff, reqName_iff _ _ kvs (fun w _ x => decStx_iff L w x),
        optName_iff _ _ _ kvs hk] at h
      obtain ⟨_, k0, _, a1, _, a2, e⟩ := h
      injection e with e
      injection e with f1 f2
      subst f1 f2
      exact .inr ⟨_, rfl, k0, a1, a2⟩
    · cases h
  · rintro (⟨a, e, rfl, a1, h2⟩ | ⟨kvs, rfl, k0, a1, a2⟩)
    · unfold decStadWith
      simp only [bind, Option.bind_eq_some_iff, Prod.exists, next_iff, nextOr_iff]
      refine ⟨s1, _, ⟨a, rfl, (decStx_iff _ _ _).2 a1⟩, ?_⟩
      rcases h2 with ⟨rfl, e⟩ | ⟨w, rfl, h⟩
      · exact ⟨s2, [], .inl ⟨rfl, e, rfl⟩, rfl⟩
      · exact ⟨s2, [], .inr ⟨w, rfl, (had w (by rw [depthMP]; exact Nat.lt_succ_of_le (depthList_mem (by simp))) _).2 h⟩, rfl⟩
    · have hk : ∀ w ∈ kvs, ∀ x, ad w = some x ↔ IsEffects L x w := fun w hw =>
        had w (by rw [depthMP]; exact Nat.lt_succ_of_le (depthList_mem hw))
      unfold decStadWith
      simp only [bind, Option.bind_eq_some_iff, checkKeys_iff, reqName_iff _ _ kvs (fun w _ x => decStx_iff L w x),
        optName_iff _ _ _ kvs hk]
      exact ⟨(), k0, _, a1, _, a2, rfl⟩

theorem mapM_iff_mem {α : Type} {f : MP → Option α} {P : α → MP → Prop} {vs : List MP}
    (hf : ∀ v ∈ vs, ∀ x, f v = some x ↔ P x v) (xs : List α) : vs.mapM f = some xs ↔ List.Forall₂ P xs vs := by
  induction vs generalizing xs with
  | nil =>
    constructor
    · intro h
      injection h with h
      subst h
      exact .nil
    · intro h
      cases h
      rfl
  | cons v vs ih =>
    rw [List.mapM_cons]
    constructor
    · intro h
      obtain ⟨x, h1, h⟩ := Option.bind_eq_some_iff.1 h
      obtain ⟨l, h2, h⟩ := Option.bind_eq_some_iff.1 h
      injection h with h
      subst h
      exact .cons ((hf v (by simp) x).1 h1) ((ih (fun w hw => hf w (List.mem_cons_of_mem _ hw)) l).1 h2)
    · intro h
      cases h with
      | cons h1 h2 =>
        refine Option.bind_eq_some_iff.2 ⟨_, (hf v (by simp) _).2 h1, ?_⟩
        exact Option.bind_eq_some_iff.2 ⟨_, (ih (fun w hw => hf w (List.mem_cons_of_mem _ hw)) _).2 h2, rfl⟩

theorem isInner_iff (L : Lib) : ∀ (i : InnerTxs) (l : List MP),
    IsInner L i l ↔ ∃ xs, InnerTxs.ofList xs = i ∧ List.Forall₂ (IsTxEffects L) xs l
  | .nil, l => by
    rw [IsInner]
    constructor
    · rintro rfl
      exact ⟨[], rfl, .nil⟩
    · rintro ⟨xs, h, hf⟩
      cases hf with
      | nil => rfl
      | cons _ _ => cases h
  | .cons tx ad rest, l => by
    rw [IsInner]
    constructor
    · rintro ⟨v, l', rfl, h1, h2⟩
      obtain ⟨xs, hx, hf⟩ := (isInner_iff L rest l').1 h2
      exact ⟨⟨tx, ad⟩ :: xs, by rw [InnerTxs.ofList, hx], .cons h1 hf⟩
    · rintro ⟨xs, h, hf⟩
      cases hf with
      | nil => cases h
      | cons h1 h2 =>
        rename_i x v xs l'
        obtain ⟨t, a⟩ := x
        rw [InnerTxs.ofList] at h
        injection h with e1 e2 e3
        subst e1 e2
        exact ⟨v, l', rfl, h1, (isInner_iff L rest l').2 ⟨xs, e3, h2⟩⟩

theorem decInnerVec_iff (L : Lib) (stad : MP → Option (Stad ApplyData)) (v : MP)
    (hs : ∀ w, depthMP w < depthMP v → ∀ x, stad w = some x ↔ IsTxEffects L x w) (i : InnerTxs) :
    (∃ xs, decVec stad v = some xs ∧ InnerTxs.ofList xs = i) ↔ ∃ l, v = .arr l ∧ IsInner L i l := by
  cases v with
  | arr l =>
    have hm : ∀ w ∈ l, ∀ x, stad w = some x ↔ IsTxEffects L x w := fun w hw =>
      hs w (by rw [depthMP]; exact Nat.lt_succ_of_le (depthList_mem hw))
    simp only [decVec, mapM_iff_mem hm, isInner_iff]
    constructor
    · rintro ⟨xs, h1, h2⟩
      exact ⟨l, rfl, xs, h2, h1⟩
    · rintro ⟨_, e, xs, h2, h1⟩
      injection e with e
      subst e
      exact ⟨xs, h1, h2⟩
  | _ => simp [decVec]

theorem decEvalDelta_iff (L : Lib) (stad : MP → Option (Stad ApplyData)) (v : MP)
    (hs : ∀ w, depthMP w < depthMP v → ∀ x, stad w = some x ↔ IsTxEffects L x w)
    (g : List (Bytes × Teal.ValueDelta)) (ld : List (Nat × List (Bytes × Teal.ValueDelta))) (logs : List Bytes) (i : InnerTxs) :
    decEvalDelta stad v = some (g, ld, logs, i) ↔ IsStruct [
        (['g', 'l', 'o', 'b', 'a', 'l', '_', 'd', 'e', 'l', 't', 'a'], IsStateDelta g),
        (['l', 'o', 'c', 'a', 'l', '_', 'd', 'e', 'l', 't', 'a', 's'], IsMap (IsUint (2 ^ 64)) IsStateDelta ld),
        (['l', 'o', 'g', 's'], IsList IsString logs),
        (['i', 'n', 'n', 'e', 'r', '_', 't', 'x', 's'], fun u => ∃ l, u = .arr l ∧ IsInner L i l)] v := by
  rw [isStruct_iff, decEvalDelta]
  constructor
  · intro h
    obtain ⟨l, hl, h⟩ := Option.bind_eq_some_iff.1 h
    have hd := decStruct_depth hl
    split at h
    · obtain ⟨_, a1, h⟩ := Option.bind_eq_some_iff.1 h
      obtain ⟨_, a2, h⟩ := Option.bind_eq_some_iff.1 h
      obtain ⟨_, a3, h⟩ := Option.bind_eq_some_iff.1 h
      obtain ⟨_, a4, h⟩ := Option.bind_eq_some_iff.1 h
      injection h with e
      simp only [Prod.mk.injEq] at e
      obtain ⟨f1, f2, f3, f4⟩ := e
      subst f1 f2 f3
      refine ⟨_, hl, ?_⟩
      refine .cons ((decStateDelta_iff _ _).1 a1) ?_
      refine .cons ((decMap_iff (decUint_iff _) decStateDelta_iff _ _).1 a2) ?_
      refine .cons ((decVec_iff decStr_iff _ _).1 a3) ?_
      refine .cons ((decInnerVec_iff L stad _ (fun w hw => hs w (Nat.lt_trans hw (hd _ (by simp)))) i).1 ⟨_, a4, f4⟩) ?_
      exact .nil
    · cases h
  · rintro ⟨l, hl, hf⟩
    have hd := decStruct_depth hl
    refine Option.bind_eq_some_iff.2 ⟨l, hl, ?_⟩
    obtain _ | ⟨a1, hf⟩ := hf
    obtain _ | ⟨a2, hf⟩ := hf
    obtain _ | ⟨a3, hf⟩ := hf
    obtain _ | ⟨a4, hf⟩ := hf
    cases hf
    obtain ⟨xs, a4, f4⟩ := (decInnerVec_iff L stad _ (fun w hw => hs w (Nat.lt_trans hw (hd _ (by simp)))) i).2 a4
    refine Option.bind_eq_some_iff.2 ⟨_, (decStateDelta_iff _ _).2 a1, ?_⟩
    refine Option.bind_eq_some_iff.2 ⟨_, (decMap_iff (decUint_iff _) decStateDelta_iff _ _).2 a2, ?_⟩
    refine Option.bind_eq_some_iff.2 ⟨_, (decVec_iff decStr_iff _ _).2 a3, ?_⟩
    refine Option.bind_eq_some_iff.2 ⟨_, a4, ?_⟩
    rw [f4]

theorem decAdN_iff (L : Lib) : ∀ (n : Nat) (v : MP), depthMP v ≤ n → ∀ x, decAdN L n v = some x ↔ IsEffects L x v
  | 0, v, hv, .mk f i => by
    rw [decAdN, IsEffects, isStruct_iff]
    constructor
    · intro h; cases h
    · rintro ⟨l, hl, hf⟩
      obtain _ | ⟨a1, hf⟩ := hf
      have := decStruct_depth hl _ (List.mem_cons_self ..)
      omega
  | n + 1, v, hv, .mk f i => by
    obtain ⟨x1, x2, x3, x4, x5, x6, x7, x8, x9, x10⟩ := f
    have hs : ∀ u, depthMP u < depthMP v → ∀ w, depthMP w < depthMP u → ∀ x,
        decStadWith L (decAdN L n) w = some x ↔ IsTxEffects L x w := by
      intro u hu w hw x
      exact decStadWith_iff L _ w (fun z hz y => decAdN_iff L n z (by omega) y) x
    rw [IsEffects, isStruct_iff, decAdN]
    constructor
    · intro h
      obtain ⟨l, hl, h⟩ := Option.bind_eq_some_iff.1 h
      have hd := decStruct_depth hl
      split at h
      · obtain ⟨_, a1, h⟩ := Option.bind_eq_some_iff.1 h
        obtain ⟨_, a2, h⟩ := Option.bind_eq_some_iff.1 h
        obtain ⟨_, a3, h⟩ := Option.bind_eq_some_iff.1 h
        obtain ⟨_, a4, h⟩ := Option.bind_eq_some_iff.1 h
        obtain ⟨_, a5, h⟩ := Option.bind_eq_some_iff.1 h
        obtain ⟨⟨y1, y2, y3, y4⟩, a6, h⟩ := Option.bind_eq_some_iff.1 h
        obtain ⟨_, a7, h⟩ := Option.bind_eq_some_iff.1 h
        obtain ⟨_, a8, h⟩ := Option.bind_eq_some_iff.1 h
        injection h with e
        injection e with e1 e2
        injection e1 with f1 f2 f3 f4 f5 f6 f7 f8 f9 f10
        subst f1 f2 f3 f4 f5 f6 f7 f8 f9 f10 e2
        refine ⟨_, hl, ?_⟩
        refine .cons ((decUint_iff _ _ _).1 a1) ?_
        refine .cons ((decUint_iff _ _ _).1 a2) ?_
        refine .cons ((decUint_iff _ _ _).1 a3) ?_
        refine .cons ((decUint_iff _ _ _).1 a4) ?_
        refine .cons ((decUint_iff _ _ _).1 a5) ?_
        refine .cons ((decEvalDelta_iff L _ _ (hs _ (hd _ (by simp))) _ _ _ _).1 a6) ?_
        refine .cons ((decUint_iff _ _ _).1 a7) ?_
        refine .cons ((decUint_iff _ _ _).1 a8) ?_
        exact .nil
      · cases h
    · rintro ⟨l, hl, hf⟩
      have hd := decStruct_depth hl
      refine Option.bind_eq_some_iff.2 ⟨l, hl, ?_⟩
      obtain _ | ⟨a1, hf⟩ := hf
      obtain _ | ⟨a2, hf⟩ := hf
      obtain _ | ⟨a3, hf⟩ := hf
      obtain _ | ⟨a4, hf⟩ := hf
      obtain _ | ⟨a5, hf⟩ := hf
      obtain _ | ⟨a6, hf⟩ := hf
      obtain _ | ⟨a7, hf⟩ := hf
      obtain _ | ⟨a8, hf⟩ := hf
      cases hf
      refine Option.bind_eq_some_iff.2 ⟨_, (decUint_iff _ _ _).2 a1, ?_⟩
      refine Option.bind_eq_some_iff.2 ⟨_, (decUint_iff _ _ _).2 a2, ?_⟩
      refine Option.bind_eq_some_iff.2 ⟨_, (decUint_iff _ _ _).2 a3, ?_⟩
      refine Option.bind_eq_some_iff.2 ⟨_, (decUint_iff _ _ _).2 a4, ?_⟩
      refine Option.bind_eq_some_iff.2 ⟨_, (decUint_iff _ _ _).2 a5, ?_⟩
      refine Option.bind_eq_some_iff.2 ⟨_, (decEvalDelta_iff L _ _ (hs _ (hd _ (by simp))) _ _ _ _).2 a6, ?_⟩
      refine Option.bind_eq_some_iff.2 ⟨_, (decUint_iff _ _ _).2 a7, ?_⟩
      refine Option.bind_eq_some_iff.2 ⟨_, (decUint_iff _ _ _).2 a8, ?_⟩
      rfl

theorem decAd_iff (L : Lib) (v : MP) (x : ApplyData) : decAd L v = some x ↔ IsEffects L x v :=
  decAdN_iff L _ v (Nat.le_refl _) x

theorem decStad_iff (L : Lib) (v : MP) (s : Stad ApplyData) : decStadWith L (decAd L) v = some s ↔ IsTxEffects L s v :=
  decStadWith_iff L _ v (fun w _ x => decAd_iff L w x) s

theorem decStib_iff (L : Lib) (v : MP) (s : Stib ApplyData) : decStib L v = some s ↔ IsInBlock L s v := by
  obtain ⟨s1, s2, s3⟩ := s
  rw [IsInBlock]
  constructor
  · intro h
    unfold decStib at h
    split at h
    · rename_i l
      simp only [bind, Option.bind_eq_some_iff, Prod.exists, next_iff, nextOr_iff] at h
      obtain ⟨x1, r1, ⟨a, rfl, a1⟩, x2, r2, h2, x3, r3, h3, e⟩ := h
      split at e
      · rename_i he
        injection e with e
        injection e with f1 f2 f3
        subst f1 f2 f3
        rw [List.isEmpty_iff] at he
        subst he
        refine .inl ⟨a, r1, rfl, (decStad_iff _ _ _).1 a1, ?_⟩
        rcases h2 with ⟨rfl, e2, rfl⟩ | ⟨b, rfl, a2⟩
        · rcases h3 with ⟨_, e3, _⟩ | ⟨c, e3, a3⟩
          · exact .inl ⟨rfl, e2, e3⟩
          · cases e3
        · rcases h3 with ⟨rfl, e3, _⟩ | ⟨c, rfl, a3⟩
          · exact .inr (.inl ⟨b, rfl, (decBool_iff _ _).1 a2, e3⟩)
          · exact .inr (.inr ⟨b, c, rfl, (decBool_iff _ _).1 a2, (decBool_iff _ _).1 a3⟩)
      · cases e
    · rename_i kvs
      simp only [bind, Option.bind_eq_some_iff, checkKeys_iff, reqName_iff _ _ kvs (fun w _ x => decStad_iff L w x),
        optName_iff _ _ _ kvs (fun w _ x => decBool_iff w x)] at h
      obtain ⟨_, k0, _, a1, _, a2, _, a3, e⟩ := h
      injection e with e
      injection e with f1 f2 f3
      subst f1 f2 f3
      exact .inr ⟨_, rfl, k0, a1, a2, a3⟩
    · cases h
  · rintro (⟨a, e, rfl, a1, h2⟩ | ⟨kvs, rfl, k0, a1, a2, a3⟩)
    · unfold decStib
      simp only [bind, Option.bind_eq_some_iff, Prod.exists, next_iff, nextOr_iff]
      refine ⟨s1, _, ⟨a, rfl, (decStad_iff _ _ _).2 a1⟩, ?_⟩
      rcases h2 with ⟨rfl, e2, e3⟩ | ⟨b, rfl, h2, e3⟩ | ⟨b, c, rfl, h2, h3⟩
      · exact ⟨s2, [], .inl ⟨rfl, e2, rfl⟩, s3, [], .inl ⟨rfl, e3, rfl⟩, rfl⟩
      · exact ⟨s2, [], .inr ⟨b, rfl, (decBool_iff _ _).2 h2⟩, s3, [], .inl ⟨rfl, e3, rfl⟩, rfl⟩
      · exact ⟨s2, [c], .inr ⟨b, rfl, (decBool_iff _ _).2 h2⟩, s3, [], .inr ⟨c, rfl, (decBool_iff _ _).2 h3⟩, rfl⟩
    · unfold decStib
      simp only [bind, Option.bind_eq_some_iff, checkKeys_iff, reqName_iff _ _ kvs (fun w _ x => decStad_iff L w x),
        optName_iff _ _ _ kvs (fun w _ x => decBool_iff w x)]
      exact ⟨(), k0, _, a1, _, a2, _, a3, rfl⟩

/-- **C133**: a byte string is read as a payset exactly if it begins with a MessagePack representation of one, with inner
transactions nested to any depth; and what is read is the payset represented. -/
theorem C133_reads (L : Lib) (bs : Bytes) (p : List (Stib ApplyData)) :
    decodePayset L bs = some p ↔ ∃ v q rest, bs = q ++ rest ∧ Repr v q ∧ IsPayset L p v := by
  rw [decodePayset, Option.bind_eq_some_iff]
  constructor
  · rintro ⟨⟨v, r⟩, h1, h2⟩
    obtain ⟨q, e, hq⟩ := (C119_reader _ _ _).1 h1
    exact ⟨v, q, r, e, hq, (decVec_iff (decStib_iff L) v p).1 h2⟩
  · rintro ⟨v, q, r, e, hq, h⟩
    exact ⟨(v, r), (C119_reader _ _ _).2 ⟨q, e, hq⟩, (decVec_iff (decStib_iff L) v p).2 h⟩

open Classical in
/-- C133: the bytes of a written payset represent no payset but the one that C132 says is read. -/
theorem C133_written (L : Lib) (p : List (Stib ApplyData)) (h : PaysetExact L p) (q : List (Stib ApplyData)) :
    IsPayset L q (paysetMP adCodec p) ↔ (∀ t ∈ allTxs p, Survives L t) ∧ q = p.map readFlags := by
  have h1 := C132_read_back_partial L p h []
  rw [decodePayset, encodePayset, decode_enc _ _ (fits_payset ⟨h.1, fun s hs => (h.2 s hs).sizes⟩)] at h1
  have h2 : decPayset L (paysetMP adCodec p) = if ∀ t ∈ allTxs p, Survives L t then some (p.map readFlags) else none := h1
  rw [IsPayset, ← decVec_iff (decStib_iff L)]
  rw [decPayset] at h2
  rw [h2]
  split
  · rename_i hc
    rw [Option.some.injEq]
    exact ⟨fun e => ⟨hc, e.symm⟩, fun e => e.2.symm⟩
  · rename_i hc
    exact ⟨fun e => (by cases e), fun e => absurd e.1 hc⟩

theorem surviving_reads (b : Bool) : ReadsStx (anyKey b) surviving (stxMP surviving) := by
  rw [← decStx_iff, decStx_eq (surviving_typed b)]
  exact if_pos (survives b)

theorem notKey {pos : Option Nat} {n : List Char} {key : MP} (h : isKey pos (textBytes n) key = false) :
    ¬ IsKey pos n key := by
  rw [← isKey_iff, h]
  decide

/-- A payset written by hand as a map: one transaction under its name, and the genesis hash flag at its position. -/
example (b : Bool) : ∃ w, IsPayset (anyKey b) [⟨⟨surviving, .default⟩, false, true⟩]
      (.arr [.map [.uint 2, .bool true, .str (textBytes ['t', 'x']), .arr [w]]]) := by
  have hw := surviving_reads b
  refine ⟨stxMP surviving, ?_⟩
  generalize stxMP surviving = w at hw ⊢
  refine ⟨_, rfl, .cons (.inr ⟨_, rfl, ?_, ?_, ?_, ?_⟩) .nil⟩
  · intro e he
    simp only [mapPairs, List.mem_cons, List.not_mem_nil, or_false] at he
    rcases he with rfl | rfl
    · exact .inr ⟨2, rfl⟩
    · exact .inl ⟨_, .inl rfl⟩
  · refine ⟨_, ⟨[(.uint 2, .bool true)], .str (textBytes ['t', 'x']), [], rfl, .inl (.inl rfl), ?_⟩, .inl ⟨w, [], rfl, hw, .inl ⟨rfl, rfl⟩⟩⟩
    intro e he
    simp only [List.append_nil, List.mem_singleton] at he
    subst he
    exact notKey (by decide +kernel)
  · refine .inl ⟨?_, rfl⟩
    intro e he
    simp only [mapPairs, List.mem_cons, List.not_mem_nil, or_false] at he
    rcases he with rfl | rfl
    · exact notKey (by decide +kernel)
    · exact notKey (key := .str (textBytes ['t', 'x'])) (by decide +kernel)
  · refine .inr ⟨.bool true, ⟨[], .uint 2, [(.str (textBytes ['t', 'x']), .arr [w])], rfl, .inr ⟨2, rfl, rfl⟩, ?_⟩, rfl⟩
    intro e he
    simp only [List.nil_append, List.mem_singleton] at he
    subst he
    exact notKey (key := .str (textBytes ['t', 'x'])) (by decide +kernel)

end Verif.Props
