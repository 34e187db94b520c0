import Verif.Props.Block
import Verif.Props.AccountManager
import Verif.Props.Transaction
import Verif.Props.Codec
import Verif.Props.Genesis
/-!
# Claims that fail, made exact
-/
namespace Verif.Props
open Verif Verif.Block

/-- C80: exactly which configurations have the same id: one network name is the other one with a dash and a beginning of
the other schema id appended. -/
theorem C80_exact_partial (n n' s s' : List Char) : genesisId n s = genesisId n' s' ↔
    (n = n' ∧ s = s') ∨ (∃ m, n' = n ++ '-' :: m ∧ s = m ++ '-' :: s') ∨ (∃ m, n = n' ++ '-' :: m ∧ s' = m ++ '-' :: s) := by
  unfold genesisId
  constructor
  · intro h
    rcases List.append_eq_append_iff.1 h with ⟨a, h1, h2⟩ | ⟨a, h1, h2⟩
    · cases a with
      | nil => simp at h1 h2; exact Or.inl ⟨h1.symm, h2⟩
      | cons c m =>
        simp only [List.cons_append, List.cons.injEq] at h2
        obtain ⟨rfl, h2⟩ := h2
        exact Or.inr (Or.inl ⟨m, h1, h2⟩)
    · cases a with
      | nil => simp at h1 h2; exact Or.inl ⟨h1, h2.symm⟩
      | cons c m =>
        simp only [List.cons_append, List.cons.injEq] at h2
        obtain ⟨rfl, h2⟩ := h2
        exact Or.inr (Or.inr ⟨m, h1, h2⟩)
  · rintro (⟨rfl, rfl⟩ | ⟨m, rfl, rfl⟩ | ⟨m, rfl, rfl⟩) <;> simp

example : genesisId ['a', '-', 'b'] ['v'] = genesisId ['a'] ['b', '-', 'v'] :=
  (C80_exact_partial _ _ _ _).2 (Or.inr (Or.inr ⟨['b'], rfl, rfl⟩))

/-! ## Equal values with different encodings -/
section
open Verif.Codec Verif.Msgpack Verif.Tx

/-- The entries of hash maps have different keys. -/
def AdFlatDistinct (f : AdFlat) : Prop :=
  (f.globalDelta.map (·.1)).Nodup ∧ (f.localDeltas.map (·.1)).Nodup ∧ ∀ e ∈ f.localDeltas, (e.2.map (·.1)).Nodup

mutual
/-- The entries of all hash maps inside have different keys. -/
def AdDistinct : ApplyData → Prop
  | .mk f i => AdFlatDistinct f ∧ InnerDistinct i
/-- The same for inner transactions. -/
def InnerDistinct : InnerTxs → Prop
  | .nil => True
  | .cons _ a r => AdDistinct a ∧ InnerDistinct r
end

theorem other_order {α β : Type} {l : List (α × β)} (hn : (l.map (·.1)).Nodup) (hl : ¬ l.length ≤ 1) :
    ∃ l', l.Perm l' ∧ l' ≠ l := by
  match l, hl with
  | [], h => simp at h
  | [_], h => simp at h
  | x :: y :: r, _ =>
    refine ⟨y :: x :: r, List.Perm.swap y x r, fun h => ?_⟩
    injection h with h _
    simp [h] at hn

theorem delta_forall_refl (l : List (Nat × List (Bytes × Teal.ValueDelta))) :
    List.Forall₂ (fun x y => x.1 = y.1 ∧ SameDelta x.2 y.2) l l := by
  induction l with
  | nil => exact .nil
  | cons x l ih => exact .cons ⟨rfl, List.Perm.refl _⟩ ih

theorem adFlat_same_refl (f : AdFlat) : f.Same f :=
  ⟨rfl, rfl, rfl, rfl, rfl, List.Perm.refl _, ⟨_, List.Perm.refl _, delta_forall_refl _⟩, rfl, rfl, rfl⟩

mutual
theorem ad_same_refl : ∀ a : ApplyData, a.Same a
  | .mk f i => by rw [ApplyData.Same]; exact ⟨adFlat_same_refl f, inner_same_refl i⟩
theorem inner_same_refl : ∀ i : InnerTxs, i.Same i
  | .nil => by simp [InnerTxs.Same]
  | .cons t a r => by rw [InnerTxs.Same]; exact ⟨rfl, ad_same_refl a, inner_same_refl r⟩
end

theorem inner_same_length : ∀ {i j : InnerTxs}, i.Same j → i.length = j.length
  | .nil, .nil, _ => rfl
  | .cons _ _ r, .cons _ _ r', h => by
    rw [InnerTxs.Same] at h
    simp [InnerTxs.length, inner_same_length h.2.2]
  | .nil, .cons _ _ _, h => by simp [InnerTxs.Same] at h
  | .cons _ _ _, .nil, h => by simp [InnerTxs.Same] at h

theorem typed_perm {l l' : List (Bytes × Teal.ValueDelta)} (h : StateDeltaTyped l) (hp : l.Perm l') : StateDeltaTyped l' :=
  ⟨hp.length_eq ▸ h.1, fun e he => h.2 e (hp.mem_iff.2 he)⟩

theorem adFlat_reordered {f : AdFlat} (ht : AdFlatTyped f) (hd : AdFlatDistinct f) (ho : ¬ AdFlatOrdered f) :
    ∃ g, f.Same g ∧ AdFlatTyped g ∧ g ≠ f := by
  by_cases h1 : f.globalDelta.length ≤ 1
  · by_cases h2 : f.localDeltas.length ≤ 1
    · have h3 : ∃ e ∈ f.localDeltas, ¬ e.2.length ≤ 1 := by
        by_contra hc
        push Not at hc
        exact ho ⟨h1, h2, fun e he => by have := hc e he; omega⟩
      obtain ⟨e, he, hl⟩ := h3
      have hs : f.localDeltas = [e] := by
        match hf : f.localDeltas, h2 with
        | [], _ => rw [hf] at he; cases he
        | [x], _ => rw [hf] at he; rw [List.mem_singleton.1 he]
      obtain ⟨l', hp, hne⟩ := other_order (hd.2.2 e he) hl
      refine ⟨{ f with localDeltas := [(e.1, l')] }, ⟨rfl, rfl, rfl, rfl, rfl, List.Perm.refl _,
        ⟨[(e.1, l')], List.Perm.refl _, ?_⟩, rfl, rfl, rfl⟩, { ht with localDeltas := ?_ }, fun hf => ?_⟩
      · rw [hs]; exact .cons ⟨rfl, hp⟩ .nil
      · refine ⟨by simp [u32Lim], fun x hx => ?_⟩
        rw [List.mem_singleton.1 hx]
        exact ⟨(ht.localDeltas.2 e he).1, typed_perm (ht.localDeltas.2 e he).2 hp⟩
      · have := congrArg AdFlat.localDeltas hf
        rw [hs] at this
        simp only [List.cons.injEq, and_true] at this
        exact hne (congrArg Prod.snd this)
    · obtain ⟨l', hp, hne⟩ := other_order hd.2.1 h2
      refine ⟨{ f with localDeltas := l' }, ⟨rfl, rfl, rfl, rfl, rfl, List.Perm.refl _,
        ⟨_, hp, delta_forall_refl _⟩, rfl, rfl, rfl⟩, { ht with localDeltas := ?_ },
        fun hf => hne (congrArg AdFlat.localDeltas hf)⟩
      exact ⟨hp.length_eq ▸ ht.localDeltas.1, fun e he => ht.localDeltas.2 e (hp.mem_iff.2 he)⟩
  · obtain ⟨l', hp, hne⟩ := other_order hd.1 h1
    exact ⟨{ f with globalDelta := l' }, ⟨rfl, rfl, rfl, rfl, rfl, hp, ⟨_, List.Perm.refl _, delta_forall_refl _⟩,
      rfl, rfl, rfl⟩, { ht with globalDelta := typed_perm ht.globalDelta hp },
      fun hf => hne (congrArg AdFlat.globalDelta hf)⟩

mutual
theorem ad_reordered : ∀ {a : ApplyData}, a.Typed → AdDistinct a → ¬ AdOrdered a → ∃ b, a.Same b ∧ b.Typed ∧ b ≠ a
  | .mk f i, ht, hd, ho => by
    rw [ApplyData.Typed] at ht
    rw [AdDistinct] at hd
    rw [AdOrdered] at ho
    by_cases hf : AdFlatOrdered f
    · obtain ⟨j, hj, hjt, hne⟩ := inner_reordered ht.2.2 hd.2 (fun h => ho ⟨hf, h⟩)
      refine ⟨.mk f j, ?_, ?_, fun h => ?_⟩
      · rw [ApplyData.Same]; exact ⟨adFlat_same_refl f, hj⟩
      · rw [ApplyData.Typed]; exact ⟨ht.1, inner_same_length hj ▸ ht.2.1, hjt⟩
      · injection h with _ h; exact hne h
    · obtain ⟨g, hg, hgt, hne⟩ := adFlat_reordered ht.1 hd.1 hf
      refine ⟨.mk g i, ?_, ?_, fun h => ?_⟩
      · rw [ApplyData.Same]; exact ⟨hg, inner_same_refl i⟩
      · rw [ApplyData.Typed]; exact ⟨hgt, ht.2⟩
      · injection h with h _; exact hne h
theorem inner_reordered : ∀ {i : InnerTxs}, i.Typed → InnerDistinct i → ¬ InnerOrdered i →
    ∃ j, i.Same j ∧ j.Typed ∧ j ≠ i
  | .nil, _, _, ho => by simp [InnerOrdered] at ho
  | .cons t a r, ht, hd, ho => by
    rw [InnerTxs.Typed] at ht
    rw [InnerDistinct] at hd
    rw [InnerOrdered] at ho
    by_cases ha : AdOrdered a
    · obtain ⟨j, hj, hjt, hne⟩ := inner_reordered ht.2.2 hd.2 (fun h => ho ⟨ha, h⟩)
      refine ⟨.cons t a j, ?_, ?_, fun h => ?_⟩
      · rw [InnerTxs.Same]; exact ⟨rfl, ad_same_refl a, hj⟩
      · rw [InnerTxs.Typed]; exact ⟨ht.1, ht.2.1, hjt⟩
      · injection h with _ _ h; exact hne h
    · obtain ⟨b, hb, hbt, hne⟩ := ad_reordered ht.2.1 hd.1 ha
      refine ⟨.cons t b r, ?_, ?_, fun h => ?_⟩
      · rw [InnerTxs.Same]; exact ⟨rfl, hb, inner_same_refl r⟩
      · rw [InnerTxs.Typed]; exact ⟨ht.1, hbt, ht.2.2⟩
      · injection h with _ h _; exact hne h
end

/-- C86: exactly the apply data without a map of two entries have one encoding. -/
theorem C86_exact_partial (t : SignedTx) (a : ApplyData) (f g : Bool) (ht : StxTyped sizesOnly t) (ha : a.Typed)
    (hd : AdDistinct a) :
    (∀ b, a.Same b → enc (stibMP adCodec ⟨⟨t, a⟩, f, g⟩) = enc (stibMP adCodec ⟨⟨t, b⟩, f, g⟩)) ↔ AdOrdered a := by
  constructor
  · intro h
    by_contra ho
    obtain ⟨b, hb, hbt, hne⟩ := ad_reordered ha hd ho
    exact hne ((C66_determined_partial _ _ ⟨ht, ha⟩ ⟨ht, hbt⟩).1 (h b hb)).2.1.symm
  · intro ho b hb
    rw [C86_small_maps_partial t a b f g ho hb]

example : AdDistinct (toyAd toyDeltas) ∧ ¬ AdOrdered (toyAd toyDeltas) := by
  rw [toyAd, AdDistinct, AdOrdered]
  simp [AdFlatDistinct, AdFlatOrdered, InnerDistinct, toyDeltas, AdFlat.default]

end

/-! ### Genesis data -/
section
open Verif.Codec Verif.Msgpack Verif.Genesis Verif.Tx Verif.Balance Verif.Teal Verif.HashId

theorem map_reordered {κ ν : Type} {K : κ → Prop} {V : ν → Prop} {W : ν → ν → Prop} (hW : ∀ x, W x x)
    {l : List (κ × ν)} (h : MapTyped K V l) (hs : ¬ Small l) : ∃ l', SameMap W l l' ∧ MapTyped K V l' ∧ l' ≠ l := by
  obtain ⟨l', hp, hne⟩ := other_order h.2.1 hs
  exact ⟨l', ⟨l, hp, List.forall₂_same.2 fun _ _ => ⟨rfl, hW _⟩⟩,
    ⟨hp.length_eq ▸ h.1, (hp.map _).nodup_iff.1 h.2.1, fun e he => h.2.2 e (hp.mem_iff.2 he)⟩, hne⟩

theorem map_inside {κ ν : Type} {K : κ → Prop} {V : ν → Prop} {W : ν → ν → Prop} (hW : ∀ x, W x x)
    {l : List (κ × ν)} (h : MapTyped K V l) {e : κ × ν} (he : e ∈ l) {v : ν} (hv : W e.2 v) (ht : V v) (hne : v ≠ e.2) :
    ∃ l', SameMap W l l' ∧ MapTyped K V l' ∧ l' ≠ l := by
  obtain ⟨p, q, rfl⟩ := List.append_of_mem he
  refine ⟨p ++ (e.1, v) :: q, ⟨_, List.Perm.refl _, ?_⟩, ⟨?_, ?_, ?_⟩, fun hc => ?_⟩
  · refine List.rel_append (List.forall₂_same.2 fun _ _ => ⟨rfl, hW _⟩) (.cons ⟨rfl, hv⟩ ?_)
    exact List.forall₂_same.2 fun _ _ => ⟨rfl, hW _⟩
  · simpa using h.1
  · simpa using h.2.1
  · intro x hx
    rcases List.mem_append.1 hx with hx | hx
    · exact h.2.2 x (by simp [hx])
    · rcases List.mem_cons.1 hx with rfl | hx
      · exact ⟨(h.2.2 e he).1, ht⟩
      · exact h.2.2 x (by simp [hx])
  · have := List.append_cancel_left hc
    injection this with this _
    exact hne (congrArg Prod.snd this)

theorem sameLocal_refl (x : LocalState) : SameLocal x x := ⟨rfl, sameMap_refl (fun _ => rfl) _⟩
theorem sameApp_refl (x : AppParams) : SameApp x x := ⟨sameMap_refl (fun _ => rfl) _, rfl⟩
theorem sameAccount_refl (a : AccountData) : SameAccount a a :=
  ⟨sameMap_refl (fun _ => rfl) _, sameMap_refl (fun _ => rfl) _, sameMap_refl sameLocal_refl _,
    sameMap_refl sameApp_refl _, rfl⟩

theorem account_reordered {L : Lib} {a : AccountData} (ht : AccountTyped L a) (hs : ¬ SmallAccount a) :
    ∃ b, SameAccount a b ∧ AccountTyped L b ∧ b ≠ a := by
  have r1 := sameMap_refl (V := (· = ·)) (fun _ => rfl) a.assetParams
  have r2 := sameMap_refl (V := (· = ·)) (fun _ => rfl) a.assets
  have r3 := sameMap_refl sameLocal_refl a.appLocalStates
  have r4 := sameMap_refl sameApp_refl a.appParams
  have c1 : ∀ l, SameMap (· = ·) a.assetParams l → MapTyped (· < u64Lim) AssetParamsTyped l → l ≠ a.assetParams →
      ∃ b, SameAccount a b ∧ AccountTyped L b ∧ b ≠ a := fun l h1 h2 h3 =>
    ⟨{ a with assetParams := l }, ⟨h1, r2, r3, r4, rfl⟩, { ht with assetParams := h2 }, fun h => h3 (congrArg AccountData.assetParams h)⟩
  have c2 : ∀ l, SameMap (· = ·) a.assets l → MapTyped (· < u64Lim) (fun h => h.amount < u64Lim) l → l ≠ a.assets →
      ∃ b, SameAccount a b ∧ AccountTyped L b ∧ b ≠ a := fun l h1 h2 h3 =>
    ⟨{ a with assets := l }, ⟨r1, h1, r3, r4, rfl⟩, { ht with assets := h2 }, fun h => h3 (congrArg AccountData.assets h)⟩
  have c3 : ∀ l, SameMap SameLocal a.appLocalStates l → MapTyped (· < u64Lim) LocalStateTyped l → l ≠ a.appLocalStates →
      ∃ b, SameAccount a b ∧ AccountTyped L b ∧ b ≠ a := fun l h1 h2 h3 =>
    ⟨{ a with appLocalStates := l }, ⟨r1, r2, h1, r4, rfl⟩, { ht with appLocalStates := h2 }, fun h => h3 (congrArg AccountData.appLocalStates h)⟩
  have c4 : ∀ l, SameMap SameApp a.appParams l → MapTyped (· < u64Lim) AppParamsTyped l → l ≠ a.appParams →
      ∃ b, SameAccount a b ∧ AccountTyped L b ∧ b ≠ a := fun l h1 h2 h3 =>
    ⟨{ a with appParams := l }, ⟨r1, r2, r3, h1, rfl⟩, { ht with appParams := h2 }, fun h => h3 (congrArg AccountData.appParams h)⟩
  by_cases s1 : Small a.assetParams
  swap
  · obtain ⟨l, h1, h2, h3⟩ := map_reordered (W := (· = ·)) (fun _ => rfl) ht.assetParams s1
    exact c1 l h1 h2 h3
  by_cases s2 : Small a.assets
  swap
  · obtain ⟨l, h1, h2, h3⟩ := map_reordered (W := (· = ·)) (fun _ => rfl) ht.assets s2
    exact c2 l h1 h2 h3
  by_cases s3 : Small a.appLocalStates
  swap
  · obtain ⟨l, h1, h2, h3⟩ := map_reordered sameLocal_refl ht.appLocalStates s3
    exact c3 l h1 h2 h3
  by_cases s4 : Small a.appParams
  swap
  · obtain ⟨l, h1, h2, h3⟩ := map_reordered sameApp_refl ht.appParams s4
    exact c4 l h1 h2 h3
  by_cases s5 : ∀ e ∈ a.appLocalStates, Small e.2.keyValue
  swap
  · push Not at s5
    obtain ⟨e, he, hn⟩ := s5
    have hte := (ht.appLocalStates.2.2 e he).2
    obtain ⟨l, h1, h2, h3⟩ := map_reordered (W := (· = ·)) (fun _ => rfl) hte.2 hn
    obtain ⟨l', h1', h2', h3'⟩ := map_inside sameLocal_refl ht.appLocalStates he (v := { e.2 with keyValue := l })
      ⟨rfl, h1⟩ ⟨hte.1, h2⟩ (fun h => h3 (congrArg LocalState.keyValue h))
    exact c3 l' h1' h2' h3'
  by_cases s6 : ∀ e ∈ a.appParams, Small e.2.globalState
  swap
  · push Not at s6
    obtain ⟨e, he, hn⟩ := s6
    have hte := (ht.appParams.2.2 e he).2
    obtain ⟨l, h1, h2, h3⟩ := map_reordered (W := (· = ·)) (fun _ => rfl) hte.globalState hn
    obtain ⟨l', h1', h2', h3'⟩ := map_inside sameApp_refl ht.appParams he (v := { e.2 with globalState := l })
      ⟨h1, rfl⟩ { hte with globalState := h2 } (fun h => h3 (congrArg AppParams.globalState h))
    exact c4 l' h1' h2' h3'
  exact absurd ⟨s1, s2, s3, s4, s5, s6⟩ hs

/-- C123: whenever some map has two entries there are the same genesis data with other bytes. -/
theorem genesis_reordered {L : Lib} {g : Genesis} (ht : GenesisTyped L g)
    (hs : ¬ ∀ x ∈ g.allocation, SmallAccount x.state) : ∃ b, SameGenesis g b ∧ GenesisTyped L b ∧ b ≠ g := by
  push Not at hs
  obtain ⟨x, hx, hn⟩ := hs
  obtain ⟨st, h1, h2, h3⟩ := account_reordered (ht.allocation.2 x hx).state hn
  obtain ⟨p, q, hpq⟩ := List.append_of_mem hx
  have rf : ∀ l : List Allocation, List.Forall₂ SameAllocation l l := fun l =>
    List.forall₂_same.2 fun y _ => ⟨rfl, rfl, sameAccount_refl _⟩
  refine ⟨{ g with allocation := p ++ { x with state := st } :: q }, ⟨?_, rfl⟩, { ht with allocation := ⟨?_, ?_⟩ }, fun h => ?_⟩
  · rw [hpq]
    exact List.rel_append (rf p) (.cons ⟨rfl, rfl, h1⟩ (rf q))
  · have := ht.allocation.1
    rw [hpq] at this
    simpa using this
  · intro y hy
    rcases List.mem_append.1 hy with hy | hy
    · exact ht.allocation.2 y (by rw [hpq]; simp [hy])
    · rcases List.mem_cons.1 hy with rfl | hy
      · exact { ht.allocation.2 x hx with state := h2 }
      · exact ht.allocation.2 y (by rw [hpq]; simp [hy])
  · have := congrArg Genesis.allocation h
    rw [hpq] at this
    have := List.append_cancel_left this
    injection this with this _
    exact h3 (congrArg Allocation.state this)

/-- C123: exactly the genesis data without a map of two entries have one encoding. -/
theorem C123_exact_partial {L : Lib} (g : Genesis) (ht : GenesisTyped L g) :
    (∀ b, SameGenesis g b → enc (genesisMP g) = enc (genesisMP b)) ↔ ∀ x ∈ g.allocation, SmallAccount x.state := by
  constructor
  · intro h
    by_contra hs
    obtain ⟨b, hb, hbt, hne⟩ := genesis_reordered ht hs
    exact hne (genesisMP_inj hbt.sizes ht.sizes (enc_inj (fits_genesis hbt) (fits_genesis ht) (h b hb).symm))
  · intro hs b hb
    have := C123_small_maps_partial id g b hb hs
    exact List.append_cancel_left this

/-- C123: all other genesis data have a second hash, or a collision. -/
theorem C123_all_violated {L : Lib} (hash : Bytes → Bytes) (g : Genesis) (ht : GenesisTyped L g)
    (hs : ∃ x ∈ g.allocation, ¬ SmallAccount x.state) : ∃ b, SameGenesis g b ∧
      (genesisHash hash g ≠ genesisHash hash b ∨
       (HashId.genesis.bytes ++ enc (genesisMP g) ≠ HashId.genesis.bytes ++ enc (genesisMP b) ∧
        hash (HashId.genesis.bytes ++ enc (genesisMP g)) = hash (HashId.genesis.bytes ++ enc (genesisMP b)))) := by
  obtain ⟨b, hb, hbt, hne⟩ := genesis_reordered ht (by push Not; exact hs)
  refine ⟨b, hb, ?_⟩
  by_cases he : genesisHash hash g = genesisHash hash b
  · rcases C122_hash_identifies hash L g b ht hbt he with h | h
    · exact absurd h.symm hne
    · exact Or.inr h
  · exact Or.inl he

example : ∃ x ∈ (toyNetwork (toyHolder 7 8)).allocation, ¬ SmallAccount x.state := by
  simp [toyNetwork, SmallAccount, Small, toyHolder]

end

/-! ## Transactions that crash the check -/
section
open Verif.Tx Verif.Consensus

/-- The limits that are checked before the sender is looked at. -/
structure LimitsBeforeSender (cc : Bytes) (tx : Transaction) (spec : SpecialAddresses) (p : Params) : Prop where
  type : TypeLimits cc tx spec p
  fee : p.enableFeePooling = true ∨ IsCert tx ∨ p.minTxFee < tx.header.fee
  ordered : tx.header.firstValid ≤ tx.header.lastValid
  life : tx.header.lastValid ≤ tx.header.firstValid + p.maxTxLife
  note : tx.header.note.length ≤ p.maxTxNoteBytes

/-- An online key registration that is valid in the last round a 64-bit number can hold. -/
def OnlineForever (tx : Transaction) (p : Params) : Prop :=
  ∃ f, tx.fields = .keyreg f ∧ p.enableKeyregCoherencyCheck = true ∧ 2 ^ 64 ≤ tx.header.lastValid + 1 ∧
    f.votePk ≠ noVoteKey ∧ f.selectionPk ≠ zero32 ∧ f.voteKeyDilution ≠ 0 ∧ f.voteFirst ≤ f.voteLast ∧ f.voteLast ≠ 0

theorem before_sender_iff (cc : Bytes) (tx : Transaction) (spec : SpecialAddresses) (p : Params) (hp : ParamsFit p)
    (hfit : FitsMachine tx p) :
    (checkFields cc tx spec p = .ok () ∧ checkCommon tx p = .ok () ∧ checkAsset tx p = .ok ()) ↔
      LimitsBeforeSender cc tx spec p := by
  have hcommon : checkCommon tx p = .ok () ↔ (p.enableFeePooling = true ∨ IsCert tx ∨ p.minTxFee < tx.header.fee) ∧
      tx.header.firstValid ≤ tx.header.lastValid ∧ tx.header.lastValid ≤ tx.header.firstValid + p.maxTxLife ∧
      tx.header.note.length ≤ p.maxTxNoteBytes := by
    rw [checkCommon]
    simp only [ite_err_ok, isCompactCert_iff]
    constructor
    · rintro ⟨h1, h2, h3, h4, _⟩
      refine ⟨?_, by omega, by omega, by omega⟩
      by_contra hcon
      simp only [not_or] at hcon
      exact h1 ⟨hcon.1, by omega, hcon.2.1⟩
    · rintro ⟨h1, h2, h3, h4⟩
      refine ⟨?_, by omega, by omega, by omega, trivial⟩
      rintro ⟨c1, c2, c3⟩
      rcases h1 with h | h | h
      · exact c1 h
      · exact c3 h
      · omega
  have htype : (checkFields cc tx spec p = .ok () ∧ checkAsset tx p = .ok ()) ↔ TypeLimits cc tx spec p := by
    rw [checkFields, checkAsset, TypeLimits]
    rw [FitsMachine] at hfit
    cases hf : tx.fields with
    | payment f => simp only [and_true]; exact (C65_spender_iff f tx.header spec).1
    | keyreg f =>
      simp only [hf] at hfit
      have hnp : checkNonParticipation f p = .ok () ↔ (f.nonparticipation = true →
          p.supportBecomeNonParticipatingTransactions = true ∧ (f.votePk = noVoteKey ∨ f.selectionPk = zero32)) := by
        rw [checkNonParticipation, defaultVrfPk, defaultPk_noVoteKey]
        by_cases hn : f.nonparticipation = true
        · rw [if_pos hn]; simp only [ite_err_ok, hn, true_implies, not_not, and_true]
        · rw [if_neg hn]; simp [hn]
      simp only [and_true]
      rw [checkKeyreg]
      by_cases hc : p.enableKeyregCoherencyCheck = true
      · rw [if_pos hc, unit_bind_ok, hnp]
        have hco : checkCoherency f tx.header = .ok () ↔ GoesOnline f tx.header.lastValid ∨ GoesOffline f := by
          by_cases hd : f.voteKeyDilution = 0
          · rw [checkCoherency, GoesOnline, GoesOffline, defaultVrfPk, defaultPk_noVoteKey, if_pos hd]
            simp only [ite_err_ok, hd]
            constructor
            · rintro ⟨_, h2, h3, _⟩
              right
              simp only [not_or, not_not] at h3
              simp at h2
              exact ⟨h2.1, h2.2, trivial, h3.1, h3.2⟩
            · rintro (⟨_, _, h3, _⟩ | ⟨h1, h2, _, h4, h5⟩)
              · exact absurd rfl h3
              · refine ⟨by omega, ?_, by simp [h4, h5], trivial⟩
                simp [h1, h2]
          · exact (C44_coherent_iff f tx.header (hfit hc hd)).1
        rw [hco]; simp [hc]
      · rw [if_neg hc, hnp]; simp [hc]
    | assetConfig f =>
      simp only [ite_err_ok, not_not, and_true, Nat.not_lt]
    | assetTransfer f => simp only [ite_err_ok, not_not, and_true]
    | assetFreeze f => simp only [ite_err_ok, not_not, and_true]
    | appCall f =>
      simp only [hf] at hfit
      simp only [and_true]
      exact (checkAppCall_iff f p hp hfit).1
    | compactCert f =>
      simp only [and_true, checkCompactCert, ite_err_ok, ne_eq, not_not]
  rw [hcommon]
  constructor
  · rintro ⟨h1, ⟨h2, h3, h4, h5⟩, h6⟩
    exact ⟨htype.1 ⟨h1, h6⟩, h2, h3, h4, h5⟩
  · rintro ⟨h1, h2, h3, h4, h5⟩
    exact ⟨(htype.2 h1).1, ⟨h2, h3, h4, h5⟩, (htype.2 h1).2⟩

theorem appSizes_fit {f : AppCall} {p : Params} (ha : AppSizesFit p) (h : f.extraProgramPages ≤ p.maxExtraAppProgramPages) :
    pagesOf f p < 2 ^ 32 ∧ pagesOf f p * p.maxAppProgramLen < 2 ^ 32 ∧ pagesOf f p * p.maxAppTotalProgramLen < 2 ^ 32 := by
  have hle : pagesOf f p ≤ 1 + p.maxExtraAppProgramPages := by
    rw [pagesOf]; split <;> omega
  exact ⟨by have := ha.1; omega, lt_of_le_of_lt (Nat.mul_le_mul_right _ hle) ha.2.1,
    lt_of_le_of_lt (Nat.mul_le_mul_right _ hle) ha.2.2⟩

theorem checkFields_panic_iff (cc : Bytes) (tx : Transaction) (spec : SpecialAddresses) (p : Params) (hp : ParamsFit p)
    (ha : AppSizesFit p) : checkFields cc tx spec p = .panic ↔ OnlineForever tx p := by
  have hnot : FitsMachine tx p → ¬ OnlineForever tx p := by
    rintro hf ⟨f, h1, h2, h3, h4, h5, h6, h7, h8⟩
    rw [FitsMachine] at hf
    simp only [h1] at hf
    have := hf h2 h6
    omega
  have hfits : FitsMachine tx p → checkFields cc tx spec p ≠ .panic := by
    intro hf hc
    by_cases hs : tx.header.sender = spec.rewardsPool
    · -- the first check does not look at the sender of anything but payments and certificates
      revert hc
      rw [checkFields]
      rw [FitsMachine] at hf
      cases hfields : tx.fields with
      | payment f => simp only [checkSpender]; repeat' split
                     all_goals simp
      | keyreg f =>
        simp only [hfields] at hf
        have hn := C43_no_panic_partial cc tx ⟨spec.feeSink, tx.header.sender ++ [0]⟩ p hp (by rw [FitsMachine]; simp only [hfields]; exact hf)
          (by intro h; have := congrArg List.length h; simp at this)
        rw [isWellFormed, ne_eq, unit_bind_panic] at hn
        simp only [not_or] at hn
        have := hn.1
        rw [checkFields] at this
        simpa only [hfields] using this
      | assetConfig f => simp only; split <;> simp
      | assetTransfer f => simp only; split <;> simp
      | assetFreeze f => simp only; split <;> simp
      | appCall f => simp only [hfields] at hf; exact (checkAppCall_iff f p hp hf).2
      | compactCert f => simp only [checkCompactCert]; repeat' split
                         all_goals simp
    · have hn := C43_no_panic_partial cc tx spec p hp hf hs
      rw [isWellFormed, ne_eq, unit_bind_panic] at hn
      exact hn (Or.inl hc)
  by_cases hf : FitsMachine tx p
  · exact ⟨fun h => absurd h (hfits hf), fun h => absurd h (hnot hf)⟩
  · obtain ⟨hd, flds⟩ := tx
    rw [FitsMachine] at hf
    cases flds with
    | keyreg f =>
      simp only [Classical.not_imp] at hf
      obtain ⟨h1, h2, h3⟩ := hf
      have hov : ¬ hd.lastValid + 1 < u64Lim := h3
      simp only [checkFields, checkKeyreg, if_pos h1]
      rw [unit_bind_panic]
      have hnp : checkNonParticipation f p ≠ .panic := by
        rw [checkNonParticipation]; repeat' split
        all_goals simp
      simp only [hnp, and_false, or_false]
      rw [checkCoherency, if_neg h2, defaultVrfPk, defaultPk_noVoteKey, addU64, if_neg hov, Res.panic_bind]
      simp only [ite_err_panic, OnlineForever]
      constructor
      · rintro ⟨c1, c2, c3, _⟩
        simp only [h2, and_false, not_false_eq_true, ne_eq, not_not, false_or, and_true] at c2
        exact ⟨f, rfl, h1, by omega, c2.1, c2.2, h2, by omega, c3⟩
      · rintro ⟨f', e, _, _, c1, c2, c3, c4, c5⟩
        injection e with e
        subst e
        refine ⟨by omega, ?_, c5, trivial⟩
        simp [c1, c2, c3]
    | appCall f => exact absurd (fun h => appSizes_fit ha h) hf
    | payment f => exact absurd trivial hf
    | assetConfig f => exact absurd trivial hf
    | assetTransfer f => exact absurd trivial hf
    | assetFreeze f => exact absurd trivial hf
    | compactCert f => exact absurd trivial hf

/-- C43: exactly which transactions crash the check, under all parameters whose page arithmetic fits 32 bits. -/
theorem C43_crash_iff_partial (cc : Bytes) (tx : Transaction) (spec : SpecialAddresses) (p : Params) (hp : ParamsFit p)
    (ha : AppSizesFit p) : isWellFormed cc tx spec p = .panic ↔
      OnlineForever tx p ∨ (tx.header.sender = spec.rewardsPool ∧ FitsMachine tx p ∧ LimitsBeforeSender cc tx spec p) := by
  have h2 : checkCommon tx p ≠ .panic := by
    rw [checkCommon]; repeat' split
    all_goals simp
  have h3 : checkAsset tx p ≠ .panic := by
    rw [checkAsset]; repeat' split
    all_goals simp
  have h4 : checkSender tx spec p = .panic ↔ tx.header.sender = spec.rewardsPool := by
    rw [checkSender]
    by_cases h : tx.header.sender = spec.rewardsPool
    · simp [h]
    · rw [if_neg h]
      simp only [ite_err_panic, h, iff_false]
      simp
  have hok : checkFields cc tx spec p = .ok () → FitsMachine tx p := by
    intro h
    rw [FitsMachine]
    obtain ⟨hd, flds⟩ := tx
    cases flds with
    | keyreg f =>
      intro hc hdil
      simp only [checkFields, checkKeyreg, if_pos hc] at h
      have h2 := (unit_bind_ok.1 h).1
      rw [checkCoherency, if_neg hdil] at h2
      simp only [ite_err_ok] at h2
      by_contra hcon
      rw [addU64, if_neg hcon, Res.panic_bind] at h2
      simp at h2
    | appCall f => exact fun h => appSizes_fit ha h
    | payment f => trivial
    | assetConfig f => trivial
    | assetTransfer f => trivial
    | assetFreeze f => trivial
    | compactCert f => trivial
  rw [isWellFormed, unit_bind_panic, unit_bind_panic, unit_bind_panic, h4, checkFields_panic_iff cc tx spec p hp ha]
  simp only [h2, h3, false_or]
  constructor
  · rintro (h | ⟨h1, h2, h3, h4⟩)
    · exact Or.inl h
    · exact Or.inr ⟨h4, hok h1, (before_sender_iff cc tx spec p hp (hok h1)).1 ⟨h1, h2, h3⟩⟩
  · rintro (h | ⟨h1, h2, h3⟩)
    · exact Or.inl h
    · obtain ⟨a, b, c⟩ := (before_sender_iff cc tx spec p hp h2).2 h3
      exact Or.inr ⟨a, b, c, h1⟩

example : OnlineForever ⟨{ toyTxHeader with firstValid := 2 ^ 64 - 1, lastValid := 2 ^ 64 - 1 },
      .keyreg ⟨[2], [3], 21, 500, 10, false⟩⟩ vFutureBase :=
  ⟨_, rfl, by decide +kernel, by decide, by decide, by decide, by decide, by decide, by decide⟩

end

/-! ## Stored forms -/
section
open Verif.Tx Verif.Consensus

/-- C81: exactly the headers under which every transaction has one stored form: the protocol strips the genesis fields, the
network has an id, and it has a hash or the protocol takes the hash for granted. -/
theorem C81_exact_partial {AD : Type} [Inhabited AD] (tbl : Protocols) (h : BlockHeader) (p : Params)
    (hp : lookup tbl h.upgradeState.current = some p) :
    (∀ (a b : Stib AD) (d : Stad AD), decodeSignedTx tbl h a = .ok d → decodeSignedTx tbl h b = .ok d → a = b) ↔
      p.supportSignedTxInBlock = true ∧ h.body.genesisId ≠ [] ∧
        (h.body.genesisHash ≠ List.replicate 32 0 ∨ p.requireGenesisHash = true) := by
  have hz : Block.zeroHash = List.replicate 32 0 := rfl
  constructor
  · intro hu
    let hd : Tx.Header := Tx.Header.default
    let s : Stad AD := ⟨{ sig := [], msig := none, lsig := none, tx := ⟨hd, .payment ⟨[], 0, none⟩⟩, authAddr := [] }, default⟩
    have hdi : Tx.Header.default.genesisId = [] := rfl
    have hdz : Tx.Header.default.genesisHash = List.replicate 32 0 := rfl
    have hs : p.supportSignedTxInBlock = true := by
      by_contra hc
      have hc : p.supportSignedTxInBlock = false := by simpa using hc
      have := hu ⟨s, true, false⟩ ⟨s, false, false⟩ s (C81_flags_ignored tbl h p hp hc s _ _) (C81_flags_ignored tbl h p hp hc s _ _)
      simp at this
    refine ⟨hs, fun hid => ?_, ?_⟩
    · have e : decodeSignedTx tbl h ⟨s, true, false⟩ = decodeSignedTx tbl h ⟨s, false, false⟩ := by
        simp [decodeSignedTx, hid, s, hd, hdz, hdi]
      have ok : ∃ d, decodeSignedTx tbl h ⟨s, false, false⟩ = .ok d := by
        simp [decodeSignedTx, hp, hs, s, hdz, hdi, hd, hz]
      obtain ⟨d, hd'⟩ := ok
      have := hu _ _ d (e.trans hd') hd'
      simp at this
    · by_contra hc
      simp only [not_or, not_not] at hc
      obtain ⟨hgh, hr⟩ := hc
      have e : decodeSignedTx tbl h ⟨s, false, true⟩ = decodeSignedTx tbl h ⟨s, false, false⟩ := by
        simp [decodeSignedTx, hp, hs, s, hdz, hdi, hd, hz, hgh, hr]
      have ok : ∃ d, decodeSignedTx tbl h ⟨s, false, false⟩ = .ok d := by
        simp [decodeSignedTx, hp, hs, s, hdz, hdi, hd, hz]
      obtain ⟨d, hd'⟩ := ok
      have := hu _ _ d (e.trans hd') hd'
      simp at this
  · rintro ⟨hs, hid, hgh⟩ a b d ha hb
    have key : ∀ x : Stib AD, decodeSignedTx tbl h x = .ok d →
        x.tx.tx.tx.header.genesisId = [] ∧ x.tx.tx.tx.header.genesisHash = List.replicate 32 0 ∧
        ¬ (p.requireGenesisHash = true ∧ x.hasGenesisHash = true) ∧
        d = { x.tx with tx := { x.tx.tx with tx := { x.tx.tx.tx with header :=
          { x.tx.tx.tx.header with
            genesisId := if x.hasGenesisId then h.body.genesisId else []
            genesisHash := if p.requireGenesisHash ∨ x.hasGenesisHash then h.body.genesisHash else List.replicate 32 0 } } } } := by
      intro x hx
      rw [decodeSignedTx, hp] at hx
      simp only [Res.ofOption_some, Res.ok_bind, hs, not_true_eq_false, if_false, hz, ite_err_ok, not_not, Res.ok.injEq] at hx
      obtain ⟨h1, h2, h3, h4⟩ := hx
      refine ⟨h1, h2, h3, ?_⟩
      rw [← h4, h1, h2]
    obtain ⟨a1, a2, a3, a4⟩ := key a ha
    obtain ⟨b1, b2, b3, b4⟩ := key b hb
    rw [a4] at b4
    obtain ⟨⟨⟨sig, sx, sy, ⟨⟨snd, fee, fv, lv, note, gid, ghash, grp, lx, rk⟩, fl⟩, sw⟩, ad⟩, f1, f2⟩ := a
    obtain ⟨⟨⟨sig', sx', sy', ⟨⟨snd', fee', fv', lv', note', gid', ghash', grp', lx', rk'⟩, fl'⟩, sw'⟩, ad'⟩, f1', f2'⟩ := b
    simp only at a1 a2 a3 b1 b2 b3 b4
    subst a1 a2 b1 b2
    generalize List.replicate 32 (0 : UInt8) = z at *
    have hgz : p.requireGenesisHash = false → h.body.genesisHash ≠ z := by
      intro hr
      rcases hgh with hg | hg
      · exact hg
      · rw [hr] at hg; cases hg
    generalize h.body.genesisId = gi at *
    generalize h.body.genesisHash = gh at *
    simp only [Stad.mk.injEq, SignedTx.mk.injEq, Transaction.mk.injEq, Tx.Header.mk.injEq] at b4
    have e1 : f1 = f1' := by
      have := b4.1.2.2.2.1.1.2.2.2.2.2.1
      cases f1 <;> cases f1' <;> simp_all
    have e2 : f2 = f2' := by
      have := b4.1.2.2.2.1.1.2.2.2.2.2.2.1
      cases hr : p.requireGenesisHash with
      | true => cases f2 <;> cases f2' <;> simp_all
      | false => cases f2 <;> cases f2' <;> simp_all
    simp_all

end

/-! ## Deleting old keys -/
section
open Verif.Account Verif.Multisig Verif.Ots

/-- C92: exactly when the keys are deleted, away from the last 64-bit rounds: the protocol is known, and nothing is managed
or the header has a compact certificate state and, once certificates are made, every account has signed one. -/
theorem C92_exact_partial {S : Scheme} (E : Ots.Enc) (K : Keys S) (tbl : Consensus.Protocols) (m : Manager S) (d : DelOp S)
    (hr : d.header.body.round + 2 < u64Lim) (hc2 : ∀ c, d.header.body.compactCerts = some c → c.nextRound + 1 < u64Lim)
    (hs : ∀ params, Consensus.lookup tbl d.header.upgradeState.current = some params → ∀ a r, d.ccSigs a = some r →
      r + params.compactCertRounds + 1 < u64Lim)
    (hd : ∀ e ∈ m.partKeys, 0 < e.2.keyDilution ∨ 0 < d.dilution) :
    (∃ m' w, m.deleteOldKeys E K tbl d.header d.ccSigs d.dilution d.fresh d.order = .ok (m', w)) ↔
      (∃ params, Consensus.lookup tbl d.header.upgradeState.current = some params) ∧
      (m.partKeys = [] ∨ ∃ c, d.header.body.compactCerts = some c ∧
        (0 < c.nextRound → ∀ e ∈ m.partKeys, ∃ r, d.ccSigs e.2.parent = some r)) := by
  constructor
  · rintro ⟨m', w, h⟩
    rw [Manager.deleteOldKeys] at h
    cases hp : Consensus.lookup tbl d.header.upgradeState.current with
    | none => rw [hp] at h; cases h
    | some params =>
      refine ⟨⟨params, rfl⟩, ?_⟩
      rw [hp, Res.ofOption_some, Res.ok_bind, Res.bind_eq_ok] at h
      obtain ⟨⟨l', w'⟩, h, _⟩ := h
      cases hc : d.header.body.compactCerts with
      | none =>
        left
        by_contra hm
        have hne : d.order m.partKeys ≠ [] := by
          intro hn
          have := d.perm m.partKeys
          rw [hn] at this
          exact hm this.symm.eq_nil
        rw [deleteLoop_panics _ _ _ _ _ _ _ hc _ hne] at h
        cases h
      | some c =>
        refine Or.inr ⟨c, rfl, fun h0 e he => ?_⟩
        have key : ∀ (l l' : List (Identity × Participation S)) (w : List (Name × Bytes)),
            deleteLoop E K d.header.body d.ccSigs params.compactCertRounds d.dilution d.fresh l = .ok (l', w) →
            ∀ e ∈ l, ∃ r, d.ccSigs e.2.parent = some r := by
          intro l
          induction l with
          | nil => intro _ _ _ e he; cases he
          | cons x l ih =>
            intro l' w h e he
            obtain ⟨id, p⟩ := x
            rw [deleteLoop, Res.bind_eq_ok] at h
            obtain ⟨n, h1, h⟩ := h
            rw [Res.bind_eq_ok] at h
            obtain ⟨⟨p', w1⟩, _, h⟩ := h
            simp only at h
            rw [Res.bind_eq_ok] at h
            obtain ⟨⟨l1, w2⟩, h3, _⟩ := h
            rcases List.mem_cons.1 he with rfl | he
            · rw [nextRound, addU64, if_pos (by omega), Res.ok_bind, hc, Res.ofOption_some, Res.ok_bind, if_pos h0,
                addU64, if_pos (hc2 c hc), Res.ok_bind] at h1
              cases hsig : d.ccSigs p.parent with
              | none => rw [hsig] at h1; cases h1
              | some r => exact ⟨r, rfl⟩
            · exact ih l1 w2 h3 e he
        exact key _ _ _ h e ((d.perm _).mem_iff.2 he)
  · rintro ⟨⟨params, hp⟩, hm | ⟨c, hc, hsig⟩⟩
    · refine ⟨⟨[]⟩, [], ?_⟩
      have hnil : d.order m.partKeys = [] := by
        have := d.perm m.partKeys
        rw [hm] at this ⊢
        exact this.eq_nil
      rw [Manager.deleteOldKeys, hp, Res.ofOption_some, Res.ok_bind, hnil]
      rfl
    · refine C92_deletes_partial E K tbl m d params c hp hc hr (hc2 c hc) (fun h0 e he => ?_) hd
      obtain ⟨r, h⟩ := hsig h0 e he
      exact ⟨r, h, hs params hp _ r h⟩

end

/-! ## C76: when a check can be repeated -/

section
open Verif Verif.Block Verif.Consensus

/-- C76: an accepted header is accepted a second time exactly if its vote, applied to the upgrade state it already
arrived at, leaves that state alone. -/
theorem C76_repeat_iff_partial {AD : Type} (env : Env AD) (tbl : Protocols) (self prev : BlockHeader)
    (h : (preCheck env tbl self prev).1 = .ok ()) :
    (preCheck env tbl self (preCheck env tbl self prev).2).1 = .ok () ↔
      applyUpgradeVote tbl self.upgradeState self.body.round self.body.upgradeVote = .ok self.upgradeState := by
  rw [C76_parent_overwritten env tbl self prev h]
  rw [preCheck] at h
  rw [preCheck]
  cases hl : lookup tbl self.upgradeState.current with
  | none => rw [hl] at h; simp at h
  | some params =>
    rw [hl] at h
    simp only at h ⊢
    have hh : headerHash env ⟨prev.body, self.upgradeState⟩ = headerHash env prev := rfl
    rw [hh]
    cases ha : (addU64 prev.body.round 1 : Res Unit Nat) with
    | ok r =>
      rw [ha] at h
      simp only at h ⊢
      by_cases h1 : r ≠ self.body.round
      · rw [if_pos h1] at h; simp at h
      rw [if_neg h1] at h ⊢
      by_cases h2 : self.body.branch ≠ headerHash env prev
      · rw [if_pos h2] at h; simp at h
      rw [if_neg h2] at h ⊢
      have h1 := Classical.not_not.1 h1
      subst h1
      cases hv : applyUpgradeVote tbl prev.upgradeState self.body.round self.body.upgradeVote with
      | panic => rw [hv] at h; simp at h
      | err e => rw [hv] at h; simp at h
      | ok s =>
        rw [hv] at h
        simp only at h
        by_cases h3 : s ≠ self.upgradeState
        · rw [if_pos h3] at h; simp at h
        rw [if_neg h3] at h
        cases hw : applyUpgradeVote tbl self.upgradeState self.body.round self.body.upgradeVote with
        | panic => simp
        | err e => simp
        | ok s' =>
          simp only [Res.ok.injEq]
          by_cases h4 : s' = self.upgradeState
          · simp only [h4, ne_eq, not_true_eq_false, if_false, iff_true]
            exact h
          · simp [h4]
    | err e => rw [ha] at h; simp at h
    | panic => rw [ha] at h; simp at h

end

/-- A case of `C81_exact_partial`: the header of a network with an identifier and a hash, in version 29. -/
example {AD : Type} [Inhabited AD] (p : Consensus.Params) (h : Consensus.lookup Consensus.builtin .v29 = some p)
    (a b : Stib AD) (d : Stad AD) (ha : decodeSignedTx Consensus.builtin toyParent a = .ok d)
    (hb : decodeSignedTx Consensus.builtin toyParent b = .ok d) : a = b := by
  have hp : ∀ q, Consensus.lookup Consensus.builtin .v29 = some q → q.supportSignedTxInBlock = true := by
    have h0 : (Consensus.lookup Consensus.builtin .v29).map (·.supportSignedTxInBlock) = some true := by decide +kernel
    intro q hq
    rw [hq] at h0
    exact Option.some.inj h0
  exact (C81_exact_partial Consensus.builtin toyParent p h).2 ⟨hp p h, by decide, .inl (by decide)⟩ a b d ha hb

/-- A case of `C76_repeat_iff_partial`: the check that `C76_not_repeatable` shows not to be repeatable. -/
example {AD : Type} (env : Env AD) : applyUpgradeVote Consensus.builtin (toyChild env).upgradeState (toyChild env).body.round
    (toyChild env).body.upgradeVote ≠ .ok (toyChild env).upgradeState := fun h => by
  have := (C76_repeat_iff_partial env Consensus.builtin (toyChild env) toyParent (C76_not_repeatable env).1).2 h
  rw [(C76_not_repeatable env).2] at this
  cases this

/-- A case of `C123_exact_partial`: the example file has a holder whose entries can be written in two orders. -/
example : ¬ ∀ b, SameGenesis (toyNetwork (toyHolder 7 8)) b →
      Msgpack.enc (Genesis.genesisMP (toyNetwork (toyHolder 7 8))) = Msgpack.enc (Genesis.genesisMP b) := fun h => by
  have := (C123_exact_partial _ (toyNetwork_typed _ (toyHolder_typed true 7 8 (by decide) (by decide) (by decide)))).1 h
  simp [toyNetwork, SmallAccount, Small, toyHolder] at this

/-- A case of `C92_exact_partial`: no keys. -/
example {S : Multisig.Scheme} (E : Ots.Enc) (K : Account.Keys S) (d : DelOp S) (hr : d.header.body.round + 2 < u64Lim)
    (hn : d.header.body.compactCerts = none) (hv : d.header.upgradeState.current = .v30) (hs : ∀ a, d.ccSigs a = none)
    : ∃ m' w, (Account.Manager.empty : Account.Manager S).deleteOldKeys E K Consensus.builtin d.header d.ccSigs d.dilution d.fresh
      d.order = .ok (m', w) := by
  refine (C92_exact_partial E K Consensus.builtin Account.Manager.empty d hr (fun c hc => by rw [hn] at hc; cases hc)
    (fun p _ a r ha => by rw [hs] at ha; cases ha) (fun e he => by cases he)).2 ⟨?_, .inl rfl⟩
  rw [hv]
  exact Option.isSome_iff_exists.1 (by decide +kernel)

end Verif.Props
