import Verif.Lemmas.MerkleArrayBinding
import Verif.Props.HashId
/-!
# Properties of the merkle array (C07, C08, C09)
-/

namespace Verif.Props
open Verif Verif.HashId Verif.MerkleArray

/-! ## The root -/

/-- Specification: the hash of the node at height `k` and position `p` over the given leaf hashes.
A node without leaves below it is the zero digest. -/
def specNode (H : Bytes → Bytes) (leaves : List Bytes) : Nat → Nat → Bytes
  | 0, p => (leaves[p]?).getD (List.replicate 32 0)
  | k + 1, p =>
    if p * 2 ^ (k + 1) < leaves.length then
      H (HashId.merkleArrayNode.bytes ++ (specNode H leaves k (2 * p) ++ specNode H leaves k (2 * p + 1)))
    else List.replicate 32 0

theorem levels_spec (H : Bytes → Bytes) (leaves : List Bytes) (hne : leaves ≠ []) :
    ∀ (j : Nat) (layer : List Bytes), (levelsFrom H leaves)[j]? = some layer →
      (∀ q, q < layer.length ↔ q * 2 ^ j < leaves.length) ∧
      ∀ q, layerVal layer q = specNode H leaves j q := by
  have hsh := levelsFrom_shape H leaves hne
  intro j
  induction j with
  | zero =>
    intro layer h
    rw [levelsFrom_zero] at h
    injection h with h; subst h
    exact ⟨by simp, fun q => rfl⟩
  | succ j ih =>
    intro layer h
    have hlt := (List.getElem?_eq_some_iff.1 h).1
    have hprev : (levelsFrom H leaves)[j]? = some (levelsFrom H leaves)[j] :=
      List.getElem?_eq_getElem (by omega)
    generalize (levelsFrom H leaves)[j] = prev at hprev
    have hup := hsh.chain j prev hprev hlt
    rw [h] at hup; injection hup with hup; subst hup
    obtain ⟨h1, h2⟩ := ih prev hprev
    have key : ∀ q, q < (layerUp H prev).length ↔ q * 2 ^ (j + 1) < leaves.length := by
      intro q
      rw [layerUp_length]
      have : q * 2 ^ (j + 1) = 2 * q * 2 ^ j := by rw [Nat.pow_succ, Nat.mul_comm (2 ^ j) 2, ← Nat.mul_assoc, Nat.mul_comm q 2]
      rw [this, ← h1 (2 * q)]
      omega
    refine ⟨key, ?_⟩
    intro q
    rw [specNode]
    by_cases hq : q < (layerUp H prev).length
    · rw [if_pos ((key q).1 hq), layerVal_up H prev q (by rw [layerUp_length] at hq; omega), h2, h2]
      rfl
    · rw [if_neg (fun e => hq ((key q).2 e)), layerVal, List.getElem?_eq_none (by omega)]; rfl

theorem root_levels (H : Bytes → Bytes) (leaves : List Bytes) (hne : leaves ≠ []) :
    ∃ top, (levelsFrom H leaves)[(levelsFrom H leaves).length - 1]? = some top ∧ top.length = 1 ∧
      root (levelsFrom H leaves) = .ok (layerVal top 0) := by
  have hnn := levelsFrom_ne_nil H leaves
  have hpos : 0 < (levelsFrom H leaves).length := List.length_pos_iff.2 hnn
  have ht : (levelsFrom H leaves)[(levelsFrom H leaves).length - 1]? =
      some (levelsFrom H leaves)[(levelsFrom H leaves).length - 1] := List.getElem?_eq_getElem (by omega)
  generalize (levelsFrom H leaves)[(levelsFrom H leaves).length - 1] = top at ht
  have hl := (levelsFrom_shape H leaves hne).top top ht
  refine ⟨top, ht, hl, ?_⟩
  rw [root, levelsFrom_zero]
  have : leaves.isEmpty = false := by cases leaves with
    | nil => exact absurd rfl hne
    | cons _ _ => rfl
  match top, hl with
  | [a], _ =>
    rw [List.getLast?_eq_getElem?, ht]
    simp only [Res.ofOption, Res.ok_bind, this]
    simp [Res.ofOption, layerVal, Res.ok_bind]

/-- C07: the root of a tree is the root of the (zero padded) binary hash tree of least height `h` with
room for all leaves; the root of the empty tree is the zero digest. -/
theorem C07_root_spec (H : Bytes → Bytes) (array : List ToBeHashed) :
    (array = [] → root (fromArray H array) = .ok (List.replicate 32 0)) ∧
    (array ≠ [] → ∃ h, array.length ≤ 2 ^ h ∧ (∀ h', array.length ≤ 2 ^ h' → h ≤ h') ∧
      root (fromArray H array) =
        .ok (specNode H (array.map fun o => H (o.id.bytes ++ o.data)) h 0)) := by
  constructor
  · intro h; subst h
    rw [fromArray, List.map_nil, levelsFrom, if_pos (by simp)]
    rfl
  · intro hne
    have hne' : array.map (hashObj H) ≠ [] := by simpa using hne
    obtain ⟨top, ht, hl, hr⟩ := root_levels H _ hne'
    have hs := levels_spec H _ hne' _ top ht
    have hpos : 0 < (levelsFrom H (array.map (hashObj H))).length :=
      List.length_pos_iff.2 (levelsFrom_ne_nil _ _)
    refine ⟨(levelsFrom H (array.map (hashObj H))).length - 1, ?_, ?_, ?_⟩
    · have := (hs.1 1).not.1 (by omega)
      simp at this; exact this
    · intro h' hh'
      have := levelsFrom_height H h' (array.map (hashObj H)) (by simpa using hh')
      omega
    · rw [fromArray, hr, hs.2]; rfl

example : ∃ H : Bytes → Bytes, root (fromArray H [⟨.payload, [1]⟩, ⟨.payload, [2]⟩, ⟨.payload, [3]⟩]) ≠
    .ok (List.replicate 32 0) ∧ 3 ≤ 2 ^ 2 := by
  refine ⟨fun x => x, ?_, by decide⟩
  obtain ⟨h, h1, h2, h3⟩ := (C07_root_spec (fun x => x)
    [⟨.payload, [1]⟩, ⟨.payload, [2]⟩, ⟨.payload, [3]⟩]).2 (by simp)
  rw [h3]
  have : h = 2 := by
    have a := h2 2 (by simp)
    have b : 3 ≤ 2 ^ h := h1
    match h, a, b with
    | 0, _, b => simp at b
    | 1, _, b => simp at b
    | 2, _, _ => rfl
  subst this
  intro e
  injection e with e
  revert e
  decide

/-! ## Completeness -/

theorem map_pos_mk (elems : List (Nat × Bytes)) :
    (elems.map (fun e => Item.mk e.1 e.2)).map Item.pos = elems.map Prod.fst := by
  induction elems with
  | nil => rfl
  | cons a t ih => simp

/-- C07: proofs for any non-empty set of positions (given in any order, with repetitions) verify against
the tree's root for the map from exactly those positions to the hashes of the elements there. -/
theorem C07_proofs_verify (H : Bytes → Bytes) (array : List ToBeHashed) (hn : array.length ≤ 2 ^ 64)
    (idxs : List Nat) (hne : idxs ≠ []) (hin : ∀ i ∈ idxs, i < array.length)
    (elems : List (Nat × Bytes)) (hnd : (elems.map Prod.fst).Nodup)
    (hkeys : ∀ p, p ∈ elems.map Prod.fst ↔ p ∈ idxs)
    (hvals : ∀ e ∈ elems, ∃ o, array[e.1]? = some o ∧ e.2 = H (o.id.bytes ++ o.data)) :
    ∃ proof r, prove H (fromArray H array) idxs = .ok proof ∧ root (fromArray H array) = .ok r ∧
      verify H r elems proof = .ok () := by
  have hlen : (array.map (hashObj H)).length = array.length := by simp
  obtain ⟨out, proof, top, ho, hom, hp, ht, htl, _, hv⟩ := prove_ok H (array.map (hashObj H)) idxs hne
    (by rw [hlen]; exact hin)
  have hane : array.map (hashObj H) ≠ [] := by
    intro e
    obtain ⟨i, hi⟩ := List.exists_mem_of_ne_nil idxs hne
    have := hin i hi
    rw [← hlen, e] at this; simp at this
  obtain ⟨top', ht', _, hr⟩ := root_levels H _ hane
  rw [ht] at ht'; injection ht' with ht'; subst ht'
  refine ⟨proof, layerVal top 0, hp, hr, ?_⟩
  have hie : elems.isEmpty = false := by
    cases elems with
    | nil =>
      obtain ⟨i, hi⟩ := List.exists_mem_of_ne_nil idxs hne
      have := (hkeys i).2 hi
      simp at this
    | cons _ _ => rfl
  have hh := levelsFrom_height H 64 (array.map (hashObj H)) (by rw [hlen]; exact hn)
  -- the sorted items
  have hsorted : (elems.map (fun e => Item.mk e.1 e.2)).mergeSort (fun a b => decide (a.pos ≤ b.pos)) =
      mkItems (array.map (hashObj H)) out := by
    have hperm := List.mergeSort_perm (elems.map (fun e => Item.mk e.1 e.2))
      (fun a b => decide (a.pos ≤ b.pos))
    have hpw := List.pairwise_mergeSort (le := fun a b : Item => decide (a.pos ≤ b.pos))
      (by intro a b c; simp; omega) (by intro a b; simp; omega)
      (elems.map (fun e => Item.mk e.1 e.2))
    generalize (elems.map (fun e => Item.mk e.1 e.2)).mergeSort
      (fun a b => decide (a.pos ≤ b.pos)) = sorted at hperm hpw
    have hpp : (sorted.map Item.pos).Perm (elems.map Prod.fst) := by
      rw [← map_pos_mk]; exact hperm.map _
    have hnd' : (sorted.map Item.pos).Nodup := hpp.nodup_iff.2 hnd
    have hle : (sorted.map Item.pos).Pairwise (· ≤ ·) := by
      rw [List.pairwise_map]
      exact hpw.imp (by intro a b h; simpa using h)
    have hstrict : Strict (sorted.map Item.pos) := by
      have := hle.and hnd'
      exact this.imp (by intro a b h; exact Nat.lt_of_le_of_ne h.1 h.2)
    have hpos : sorted.map Item.pos = out := strict_ext _ _ hstrict ho (by
      intro p; rw [hpp.mem_iff, hkeys, hom])
    rw [← hpos, mkItems, List.map_map]
    conv => lhs; rw [← List.map_id sorted]
    apply List.map_congr_left
    intro x hx
    obtain ⟨e, he, rfl⟩ := List.mem_map.1 (hperm.mem_iff.1 hx)
    obtain ⟨o, hoe, hoh⟩ := hvals e he
    simp only [Function.comp, id]
    rw [layerVal, List.getElem?_map, hoe, hoh]
    rfl
  rw [verify, hie]
  simp only [Bool.false_eq_true, if_false]
  rw [hsorted, hv 64 (by omega), Res.ok_bind]
  simp

theorem up_hints_len (H : Bytes → Bytes) (levels : List (List Bytes)) (hne : levels ≠ [])
    (hlen : ∀ lay ∈ levels, ∀ h ∈ lay, h.length = 32) (l : Nat) : ∀ (items : List Item) (h0 : List Bytes)
    (items' : List Item) (s' : Siblings), (∀ h ∈ h0, h.length = 32) →
    up H l false items ⟨levels, h0⟩ = .ok (items', s') →
    s'.levels = levels ∧ ∀ h ∈ s'.hints, h.length = 32 := by
  have hie : levels.isEmpty = false := by cases levels with
    | nil => exact absurd rfl hne
    | cons _ _ => rfl
  have hget : ∀ (h0 : List Bytes) (i : Nat) (b : Bytes) (s : Siblings), (∀ h ∈ h0, h.length = 32) →
      Siblings.get ⟨levels, h0⟩ l i = .ok (b, s) → s.levels = levels ∧ ∀ h ∈ s.hints, h.length = 32 := by
    intro h0 i b s hh hg
    rw [Siblings.get] at hg
    simp only [hie, Bool.false_eq_true, if_false] at hg
    split at hg
    · cases hg
    · rename_i layer hl
      injection hg with hg; injection hg with hg1 hg2; subst hg1; subst hg2
      refine ⟨rfl, ?_⟩
      intro h hm
      rcases List.mem_append.1 hm with hm | hm
      · exact hh h hm
      · simp only [List.mem_singleton] at hm
        subst hm
        cases he : layer[i]? with
        | none => simp [zeroHash]
        | some x => exact hlen layer (List.mem_of_getElem? hl) x (List.mem_of_getElem? he)
  intro items
  induction hn : items.length using Nat.strongRecOn generalizing items with
  | ind n ih =>
    intro h0 items' s' hh hup
    match items, hn with
    | [], _ =>
      rw [up] at hup; injection hup with hup; injection hup with _ h2; subst h2; exact ⟨rfl, hh⟩
    | [x], _ =>
      rw [up] at hup
      obtain ⟨⟨b, s1⟩, h1, h2⟩ := Res.bind_eq_ok.1 hup
      simp only [Res.pure_eq] at h2
      injection h2 with h2; injection h2 with _ h3; subst h3
      exact hget _ _ _ _ hh h1
    | x :: y :: t, hn =>
      rw [up] at hup
      split at hup
      · obtain ⟨⟨b, s1⟩, h1, h2⟩ := Res.bind_eq_ok.1 hup
        simp only [Res.pure_eq] at h2
        injection h2 with h2; injection h2 with _ h3; subst h3
        exact ih t.length (by rw [← hn]; simp; omega) t rfl _ _ _ hh h1
      · obtain ⟨⟨b, s1⟩, h1, h2⟩ := Res.bind_eq_ok.1 hup
        obtain ⟨⟨c, s2⟩, h3, h4⟩ := Res.bind_eq_ok.1 h2
        simp only [Res.pure_eq] at h4
        injection h4 with h4; injection h4 with _ h5; subst h5
        obtain ⟨g1, g2⟩ := hget _ _ _ _ hh h1
        obtain ⟨lv, hs⟩ := s1
        simp only at g1 g2; subst g1
        exact ih (y :: t).length (by rw [← hn]; simp) (y :: t) rfl _ _ _ g2 h3

/-- C07: the proofs produced consist of digests. -/
theorem C07_proof_digests (H : Bytes → Bytes) (hH : ∀ x, (H x).length = 32) (array : List ToBeHashed)
    (idxs : List Nat) (proof : List Bytes) (hp : prove H (fromArray H array) idxs = .ok proof) :
    ∀ h ∈ proof, h.length = 32 := by
  have hlen : ∀ lay ∈ fromArray H array, ∀ h ∈ lay, h.length = 32 :=
    levels_len hH (array.map (hashObj H)) (by
      intro h hh
      obtain ⟨o, _, rfl⟩ := List.mem_map.1 hh
      exact hH _)
  have hne : fromArray H array ≠ [] := levelsFrom_ne_nil _ _
  have hloop : ∀ (n l : Nat) (pl : List Item) (h0 : List Bytes) (pl' : List Item) (s' : Siblings),
      (∀ h ∈ h0, h.length = 32) → proveLoop H n l pl ⟨fromArray H array, h0⟩ = .ok (pl', s') →
      ∀ h ∈ s'.hints, h.length = 32 := by
    intro n
    induction n with
    | zero =>
      intro l pl h0 pl' s' hh hl
      rw [proveLoop] at hl; injection hl with hl; injection hl with _ h2; subst h2; exact hh
    | succ n ih =>
      intro l pl h0 pl' s' hh hl
      rw [proveLoop] at hl
      obtain ⟨⟨b, s1⟩, h1, h2⟩ := Res.bind_eq_ok.1 hl
      obtain ⟨g1, g2⟩ := up_hints_len H _ hne hlen l _ _ _ _ hh h1
      obtain ⟨lv, hs⟩ := s1
      simp only at g1 g2; subst g1
      exact ih _ _ _ _ _ g2 h2
  generalize fromArray H array = levels at *
  rw [prove.eq_def] at hp
  split at hp
  · injection hp with hp; subst hp; simp
  · match levels, hp with
    | leaves :: rest, hp =>
      simp only at hp
      obtain ⟨pl, h1, h2⟩ := Res.bind_eq_ok.1 hp
      obtain ⟨⟨pl', s'⟩, h3, h4⟩ := Res.bind_eq_ok.1 h2
      simp only at h4
      split at h4
      · cases h4
      · injection h4 with h4; subst h4
        exact hloop _ _ _ _ _ _ (by simp) h3

/-- C07: nothing to prove: the empty proof, accepted for the empty map (and nothing else is). -/
theorem C07_empty (H : Bytes → Bytes) (array : List ToBeHashed) (r : Bytes) (proof : List Bytes) :
    prove H (fromArray H array) [] = .ok [] ∧ (verify H r [] proof = .ok () ↔ proof = []) := by
  constructor
  · rfl
  · rw [verify]; cases proof <;> simp

-- three leaves, two of the positions, one of them twice
example : ∃ proof r, prove id (fromArray id [⟨.payload, [1]⟩, ⟨.payload, [2]⟩, ⟨.payload, [3]⟩]) [2, 0, 2] =
      .ok proof ∧ root (fromArray id [⟨.payload, [1]⟩, ⟨.payload, [2]⟩, ⟨.payload, [3]⟩]) = .ok r ∧
    verify id r [(2, [0x50, 0x4c, 3]), (0, [0x50, 0x4c, 1])] proof = .ok () :=
  C07_proofs_verify id _ (by simp) [2, 0, 2] (by simp) (by simp) _ (by simp)
    (by intro p; simp; omega) (by
      intro e he
      simp only [List.mem_cons, List.not_mem_nil, or_false] at he
      rcases he with rfl | rfl
      · exact ⟨_, rfl, by decide⟩
      · exact ⟨_, rfl, by decide⟩)

/-! ## Robustness of `prove` -/

/-- C09: `prove` fails exactly when a requested position does not exist, and otherwise returns a proof;
it never panics. -/
theorem C09_prove_total (H : Bytes → Bytes) (array : List ToBeHashed) (idxs : List Nat) :
    (prove H (fromArray H array) idxs = .err () ↔ ∃ i ∈ idxs, array.length ≤ i) ∧
    ((∀ i ∈ idxs, i < array.length) ↔ ∃ proof, prove H (fromArray H array) idxs = .ok proof) := by
  have herr : (∃ i ∈ idxs, array.length ≤ i) → prove H (fromArray H array) idxs = .err () := by
    rintro ⟨i, hi, hle⟩
    have hie : idxs.isEmpty = false := by cases idxs with
      | nil => cases hi
      | cons _ _ => rfl
    have hz := levelsFrom_zero H (array.map (hashObj H))
    rw [fromArray]
    match hlv : levelsFrom H (array.map (hashObj H)), hz with
    | leaves :: rest, hz =>
      simp at hz
      rw [prove, hie]
      simp only [Bool.false_eq_true, if_false]
      have := collect_err leaves (idxs.mergeSort (fun a b => decide (a ≤ b))) []
        ⟨i, (List.mergeSort_perm _ _).mem_iff.2 hi, by rw [hz]; simpa using hle⟩
      rw [this]; rfl
  have hok : (∀ i ∈ idxs, i < array.length) → ∃ proof, prove H (fromArray H array) idxs = .ok proof := by
    intro h
    by_cases hne : idxs = []
    · subst hne; exact ⟨[], rfl⟩
    · obtain ⟨_, proof, _, _, _, hp, _⟩ := prove_ok H (array.map (hashObj H)) idxs hne (by simpa using h)
      exact ⟨proof, hp⟩
  by_cases h : ∃ i ∈ idxs, array.length ≤ i
  · refine ⟨⟨fun _ => h, herr⟩, ⟨hok, ?_⟩⟩
    rintro ⟨proof, hp⟩
    rw [herr h] at hp; cases hp
  · have h' : ∀ i ∈ idxs, i < array.length := by
      intro i hi
      by_contra hc
      exact h ⟨i, hi, by omega⟩
    obtain ⟨proof, hp⟩ := hok h'
    exact ⟨⟨fun e => (by rw [hp] at e; cases e), herr⟩, ⟨fun _ => ⟨proof, hp⟩, fun _ => h'⟩⟩

/-- C09: only the set of positions matters, not their order or repetitions. -/
theorem C09_prove_set (H : Bytes → Bytes) (array : List ToBeHashed) (a b : List Nat)
    (h : ∀ p, p ∈ a ↔ p ∈ b) : prove H (fromArray H array) a = prove H (fromArray H array) b := by
  by_cases hin : ∀ i ∈ a, i < array.length
  · have hin' : ∀ i ∈ b, i < array.length := fun i hi => hin i ((h i).2 hi)
    by_cases hne : a = []
    · subst hne
      have : b = [] := List.eq_nil_iff_forall_not_mem.2 (fun p hp => by
        have := (h p).2 hp; simp at this)
      rw [this]
    · have hne' : b ≠ [] := by
        intro e; subst e
        exact hne (List.eq_nil_iff_forall_not_mem.2 (fun p hp => by have := (h p).1 hp; simp at this))
      obtain ⟨o1, p1, t1, hs1, hm1, hp1, _, _, ⟨i1, hl1⟩, _⟩ :=
        prove_ok H (array.map (hashObj H)) a hne (by simpa using hin)
      obtain ⟨o2, p2, t2, hs2, hm2, hp2, _, _, ⟨i2, hl2⟩, _⟩ :=
        prove_ok H (array.map (hashObj H)) b hne' (by simpa using hin')
      have : o1 = o2 := strict_ext _ _ hs1 hs2 (by intro p; rw [hm1, hm2]; exact h p)
      subst this
      rw [hl1] at hl2
      injection hl2 with hl2; injection hl2 with _ hl2; injection hl2 with _ hl2
      subst hl2
      rw [fromArray, hp1, hp2]
  · have hex : ∃ i ∈ a, array.length ≤ i := by
      by_contra hc
      exact hin (fun i hi => by by_contra h'; exact hc ⟨i, hi, by omega⟩)
    rw [(C09_prove_total H array a).1.2 hex]
    obtain ⟨i, hi, hle⟩ := hex
    rw [(C09_prove_total H array b).1.2 ⟨i, (h i).1 hi, hle⟩]

example : (prove id (fromArray id [⟨.payload, [1]⟩, ⟨.payload, [2]⟩]) [0, 2] = .err ()) ∧
    prove id (fromArray id [⟨.payload, [1]⟩, ⟨.payload, [2]⟩]) [1, 0, 1] =
    prove id (fromArray id [⟨.payload, [1]⟩, ⟨.payload, [2]⟩]) [0, 1] ∧
    prove id (fromArray id []) [0] = .err () :=
  ⟨(C09_prove_total id _ _).1.2 ⟨2, by simp, by simp⟩,
   C09_prove_set id _ _ _ (by intro p; simp; omega),
   (C09_prove_total id [] _).1.2 ⟨0, by simp, by simp⟩⟩

/-! ## The caller's list -/

/-- C151, the part that holds: after `prove` the caller's list holds the same positions, each as often as before; a
list in ascending order is left alone, and asking again changes neither the list nor the answer. Missing: other lists
come back in ascending order. -/
theorem C151_positions_partial (H : Bytes → Bytes) (array : List ToBeHashed) (idxs : List Nat) :
    (proveIdxs (fromArray H array) idxs).Perm idxs ∧
    (idxs.Pairwise (· ≤ ·) → proveIdxs (fromArray H array) idxs = idxs) ∧
    proveIdxs (fromArray H array) (proveIdxs (fromArray H array) idxs) = proveIdxs (fromArray H array) idxs ∧
    prove H (fromArray H array) (proveIdxs (fromArray H array) idxs) = prove H (fromArray H array) idxs := by
  have hp : (proveIdxs (fromArray H array) idxs).Perm idxs := by
    rw [proveIdxs]
    split
    · exact .refl _
    · split
      · exact .refl _
      · exact List.mergeSort_perm _ _
  have hfix : ∀ l : List Nat, l.Pairwise (· ≤ ·) → proveIdxs (fromArray H array) l = l := by
    intro l hl
    rw [proveIdxs]
    split
    · rfl
    · split
      · rfl
      · exact List.mergeSort_of_pairwise (hl.imp (fun h => by simpa using h))
  refine ⟨hp, hfix idxs, ?_, ?_⟩
  · by_cases h : idxs.isEmpty
    · have : idxs = [] := by simpa using h
      subst this; rfl
    · by_cases h2 : (fromArray H array).isEmpty
      · have he : proveIdxs (fromArray H array) idxs = idxs := by rw [proveIdxs, if_neg h, if_pos h2]
        rw [he, he]
      · apply hfix
        have he : proveIdxs (fromArray H array) idxs = idxs.mergeSort (fun a b => decide (a ≤ b)) := by
          rw [proveIdxs, if_neg h, if_neg h2]
        rw [he]
        have := List.pairwise_mergeSort (le := fun a b : Nat => decide (a ≤ b))
          (fun a b c hab hbc => by simp at *; omega) (fun a b => by simp; omega) idxs
        exact this.imp (fun h => by simpa using h)
  · exact C09_prove_set H array _ _ (fun p => hp.mem_iff)

example : proveIdxs (fromArray id [⟨.payload, [1]⟩, ⟨.payload, [2]⟩]) [0, 1] = [0, 1] :=
  (C151_positions_partial id _ [0, 1]).2.1 (by decide)

/-- C151 fails: a list that is not in ascending order is changed by asking for a proof, whether or not a proof is
given: what the caller noted beside it no longer belongs to the same positions. -/
theorem C151_reordered_violated (H : Bytes → Bytes) (a b : ToBeHashed) :
    (∃ proof, prove H (fromArray H [a, b]) [1, 0] = .ok proof) ∧ proveIdxs (fromArray H [a, b]) [1, 0] = [0, 1] ∧
    prove H (fromArray H [a, b]) [7, 0] = .err () ∧ proveIdxs (fromArray H [a, b]) [7, 0] = [0, 7] := by
  have hne : (fromArray H [a, b]).isEmpty = false := by
    have hz := levelsFrom_zero H ([a, b].map (hashObj H))
    rw [fromArray]
    cases h : levelsFrom H ([a, b].map (hashObj H)) with
    | nil => rw [h] at hz; simp at hz
    | cons x xs => rfl
  refine ⟨(C09_prove_total H [a, b] [1, 0]).2.1 (by simp), ?_, (C09_prove_total H [a, b] [7, 0]).1.2 ⟨7, by simp, by simp⟩,
    ?_⟩
  · rw [proveIdxs, hne]; simp [List.mergeSort, List.MergeSort.Internal.splitInTwo, List.merge]
  · rw [proveIdxs, hne]; simp [List.mergeSort, List.MergeSort.Internal.splitInTwo, List.merge]

/-! ## Binding -/

/-- A hash failure exhibited by the given strings: two of them (one from each list) collide, or one of
the second list hashes to the zero digest, which stands for a missing node. -/
def HashBroken (H : Bytes → Bytes) (honest seen : List Bytes) : Prop :=
  (∃ x ∈ honest, ∃ y ∈ seen, x ≠ y ∧ H x = H y) ∨ ∃ y ∈ seen, H y = List.replicate 32 0

theorem climb_fst (H : Bytes → Bytes) : ∀ (ss : List Bytes) (p : Nat) (h : Bytes),
    (climb H p h ss).1 = p / 2 ^ ss.length
  | [], p, h => by simp [climb]
  | s :: ss, p, h => by
    rw [climb, climb_fst H ss, Nat.div_div_eq_div_mul, List.length_cons, Nat.pow_succ, Nat.mul_comm]

/-- C08: a verified claim about an element of the array is true. If `verify` accepts, against the root
of the tree of `array`, a map sending each claimed position `p` to the hash of the object `o`, then `o`
really is the element at position `p` — or the strings hashed by the tree, the claims and the verifier
exhibit a collision or a preimage of the zero digest. Tree nodes are domain separated, so claimed
objects and elements are assumed not to be tree nodes themselves. -/
theorem C08_binding (H : Bytes → Bytes) (hH : ∀ x, (H x).length = 32) (array : List ToBeHashed)
    (claims : List (Nat × ToBeHashed)) (proof : List Bytes) (r : Bytes)
    (hp : ∀ h ∈ proof, h.length = 32)
    (harr : ∀ o ∈ array, o.id ≠ .merkleArrayNode) (hcl : ∀ c ∈ claims, c.2.id ≠ .merkleArrayNode)
    (hr : root (fromArray H array) = .ok r)
    (hv : verify H r (claims.map fun c => (c.1, H (c.2.id.bytes ++ c.2.data))) proof = .ok ()) :
    (∀ c ∈ claims, array[c.1]? = some c.2) ∨
    HashBroken H (treeStrings H array)
      (claims.map (fun c => c.2.id.bytes ++ c.2.data) ++
        verifyLog H (claims.map fun c => (c.1, H (c.2.id.bytes ++ c.2.data))) proof) := by
  by_cases hb : HashBroken H (treeStrings H array)
      (claims.map (fun c => c.2.id.bytes ++ c.2.data) ++
        verifyLog H (claims.map fun c => (c.1, H (c.2.id.bytes ++ c.2.data))) proof)
  · exact Or.inr hb
  refine Or.inl fun c hc => ?_
  have hne : (claims.map fun c => (c.1, H (c.2.id.bytes ++ c.2.data))) ≠ [] := by
    intro e
    rw [List.map_eq_nil_iff] at e; subst e; cases hc
  obtain ⟨d, top, hloop, hpath⟩ := verify_paths hH hv hne (by
    intro e he
    obtain ⟨c, _, rfl⟩ := List.mem_map.1 he
    exact hH _) hp
  obtain ⟨ss, hss, hsl, hlog, hclimb⟩ := hpath _ (List.mem_map.2 ⟨c, hc, rfl⟩)
  simp only at hss hlog hclimb
  have hcs : c.2.id.bytes ++ c.2.data ∈ claims.map (fun c => c.2.id.bytes ++ c.2.data) :=
    List.mem_map.2 ⟨c, hc, rfl⟩
  by_cases hane : array = []
  · -- the empty tree has the zero root
    exfalso
    subst hane
    have hz := (C07_root_spec H []).1 rfl
    rw [hr] at hz; injection hz with hz; subst hz
    rcases List.eq_nil_or_concat ss with e | ⟨ys, y, e⟩
    · subst e
      simp only [climb, Prod.mk.injEq] at hclimb
      exact hb (Or.inr ⟨_, List.mem_append_left _ hcs, hclimb.2⟩)
    · subst e
      rw [List.concat_eq_append] at hclimb hlog
      rw [climb_concat] at hclimb
      rw [climbStrings_concat] at hlog
      simp only [Prod.mk.injEq] at hclimb
      exact hb (Or.inr ⟨_, List.mem_append_right _ (hlog _ (by simp)), hclimb.2⟩)
  · have hlne : array.map (hashObj H) ≠ [] := by simpa using hane
    obtain ⟨topl, ht, htl, hr'⟩ := root_levels H _ hlne
    rw [fromArray] at hr
    rw [hr] at hr'; injection hr' with hr'; subst hr'
    have hlen := levels_len hH (array.map (hashObj H)) (by
      intro h hh
      obtain ⟨o, _, rfl⟩ := List.mem_map.1 hh
      exact hH _)
    have hsh := levelsFrom_shape H _ hlne
    have h0 := levelsFrom_zero H (array.map (hashObj H))
    have hpos : 0 < (levelsFrom H (array.map (hashObj H))).length :=
      List.length_pos_iff.2 (levelsFrom_ne_nil _ _)
    have hleaf : ∀ x q, H x = layerVal (array.map (hashObj H)) q →
        (∃ o, array[q]? = some o ∧ H x = H (o.id.bytes ++ o.data)) ∨ H x = List.replicate 32 0 := by
      intro x q e
      rw [layerVal, List.getElem?_map] at e
      cases ho : array[q]? with
      | none => rw [ho] at e; exact Or.inr e
      | some o => rw [ho] at e; exact Or.inl ⟨o, rfl, e⟩
    have hts : ∀ (o : ToBeHashed) (q : Nat), array[q]? = some o → o.id.bytes ++ o.data ∈ treeStrings H array := by
      intro o q ho
      exact List.mem_append_left _ (List.mem_map.2 ⟨o, List.mem_of_getElem? ho, rfl⟩)
    rcases descend hH _ hsh hlen c.1 (H (c.2.id.bytes ++ c.2.data)) (hH _) d ss _ topl hss hsl ht
        (by rw [hclimb]) with
      ⟨x, hx, y, hy, q⟩ | ⟨y, hy, q⟩ | ⟨h1, low, h2, h3⟩ | ⟨h1, low, y, q, h2, hy, ⟨l, rr, hyr⟩, h4⟩
    · exact absurd (Or.inl ⟨x, List.mem_append_right _ hx, y, List.mem_append_right _ (hlog y hy), q⟩) hb
    · exact absurd (Or.inr ⟨y, List.mem_append_right _ (hlog y hy), q⟩) hb
    · -- the path ends at an inner node or a leaf
      by_cases hd : (levelsFrom H (array.map (hashObj H))).length - 1 - d = 0
      · rw [hd, h0] at h2
        injection h2 with h2; subst h2
        rcases hleaf _ _ h3 with ⟨o, ho, e⟩ | e
        · by_cases heq : o.id.bytes ++ o.data = c.2.id.bytes ++ c.2.data
          · rw [ho, C14_domain_separation o c.2 heq]
          · exact absurd (Or.inl ⟨_, hts o _ ho, _, List.mem_append_left _ hcs, heq, e.symm⟩) hb
        · exact absurd (Or.inr ⟨_, List.mem_append_left _ hcs, e⟩) hb
      · exfalso
        obtain ⟨j, hj⟩ : ∃ j, (levelsFrom H (array.map (hashObj H))).length - 1 - d = j + 1 :=
          ⟨_, (Nat.succ_pred hd).symm⟩
        rw [hj] at h2
        have hlt := (List.getElem?_eq_some_iff.1 h2).1
        have hprev : (levelsFrom H (array.map (hashObj H)))[j]? =
            some (levelsFrom H (array.map (hashObj H)))[j] := List.getElem?_eq_getElem (by omega)
        generalize (levelsFrom H (array.map (hashObj H)))[j] = prev at hprev
        have hup := hsh.chain j prev hprev hlt
        rw [h2] at hup; injection hup with hup; subst hup
        by_cases hq : 2 * c.1 < prev.length
        · rw [layerVal_up H prev _ hq] at h3
          have hmem : pairRep (layerVal prev (2 * c.1)) (layerVal prev (2 * c.1 + 1)) ∈ treeStrings H array := by
            refine List.mem_append_right _ (List.mem_flatMap.2 ⟨prev, ?_, mem_pairStrings prev _ hq⟩)
            rw [fromArray, List.mem_iff_getElem?]
            exact ⟨j, by rw [List.getElem?_dropLast, if_pos (by omega)]; exact hprev⟩
          refine hb (Or.inl ⟨_, hmem, _, List.mem_append_left _ hcs, ?_, h3.symm⟩)
          intro e
          have := C14_domain_separation ⟨.merkleArrayNode, _⟩ c.2 e
          exact hcl c hc (by rw [← this])
        · refine hb (Or.inr ⟨_, List.mem_append_left _ hcs, ?_⟩)
          rw [h3, layerVal, List.getElem?_eq_none (by rw [layerUp_length]; omega)]; rfl
    · exfalso
      rw [h0] at h2; injection h2 with h2; subst h2
      rcases hleaf _ _ h4 with ⟨o, ho, e⟩ | e
      · refine hb (Or.inl ⟨_, hts o _ ho, y, List.mem_append_right _ (hlog y hy), ?_, e.symm⟩)
        intro e'
        rw [hyr] at e'
        have := C14_domain_separation o ⟨.merkleArrayNode, _⟩ e'
        exact harr o (List.mem_of_getElem? ho) (by rw [this])
      · exact hb (Or.inr ⟨y, List.mem_append_right _ (hlog y hy), e⟩)

/-- C08, for bare hashes: when verification against the root of a non-empty tree takes as many rounds as
the tree is high, each claimed hash is the one the tree holds there (the zero digest beyond the last
element) — or the strings hashed exhibit a collision or a preimage of the zero digest. -/
theorem C08_honest_tree (H : Bytes → Bytes) (hH : ∀ x, (H x).length = 32) (array : List ToBeHashed)
    (hane : array ≠ []) (elems : List (Nat × Bytes)) (proof : List Bytes) (r : Bytes)
    (hp : ∀ h ∈ proof, h.length = 32) (he : ∀ e ∈ elems, e.2.length = 32)
    (hr : root (fromArray H array) = .ok r) (hv : verify H r elems proof = .ok ())
    (d : Nat) (t : List Item)
    (hd : verifyLoop H 64 0
      ((elems.map (fun e => Item.mk e.1 e.2)).mergeSort (fun a b => decide (a.pos ≤ b.pos))) proof = .ok (d, t))
    (hheight : array.length ≤ 2 ^ d ∧ ∀ d', array.length ≤ 2 ^ d' → d ≤ d') :
    (∀ e ∈ elems, e.2 = match array[e.1]? with
      | some o => H (o.id.bytes ++ o.data)
      | none => List.replicate 32 0) ∨
    HashBroken H (treeStrings H array) (verifyLog H elems proof) := by
  by_cases hb : HashBroken H (treeStrings H array) (verifyLog H elems proof)
  · exact Or.inr hb
  refine Or.inl fun e hm => ?_
  obtain ⟨d', u, hl, hq⟩ := verify_paths hH hv (List.ne_nil_of_mem hm) he hp
  rw [hd] at hl; injection hl with hl; injection hl with hl _; subst hl
  obtain ⟨ss, hss, hsl, hlog, hclimb⟩ := hq e hm
  have hlne : array.map (hashObj H) ≠ [] := by simpa using hane
  obtain ⟨topl, ht, htl, hr'⟩ := root_levels H _ hlne
  rw [fromArray] at hr
  rw [hr] at hr'; injection hr' with hr'; subst hr'
  have hlen := levels_len hH (array.map (hashObj H)) (by
    intro h hh
    obtain ⟨o, _, rfl⟩ := List.mem_map.1 hh
    exact hH _)
  have hpos : 0 < (levelsFrom H (array.map (hashObj H))).length :=
    List.length_pos_iff.2 (levelsFrom_ne_nil _ _)
  have hdh : (levelsFrom H (array.map (hashObj H))).length - 1 = d := by
    have h1 := levelsFrom_height H d (array.map (hashObj H)) (by simpa using hheight.1)
    have h2 := hheight.2 ((levelsFrom H (array.map (hashObj H))).length - 1) (by
      have := ((levels_spec H _ hlne _ topl ht).1 1).not.1 (by omega)
      simpa using this)
    omega
  rcases descend hH _ (levelsFrom_shape H _ hlne) hlen e.1 e.2 (he e hm) d ss _ topl hss hsl ht
      (by rw [hclimb]) with
    ⟨x, hx, y, hy, q⟩ | ⟨y, hy, q⟩ | ⟨h1, low, h2, h3⟩ | ⟨h1, _⟩
  · exact absurd (Or.inl ⟨x, List.mem_append_right _ hx, y, hlog y hy, q⟩) hb
  · exact absurd (Or.inr ⟨y, hlog y hy, q⟩) hb
  · rw [hdh, Nat.sub_self, levelsFrom_zero] at h2
    injection h2 with h2; subst h2
    rw [h3, layerVal, List.getElem?_map]
    cases array[e.1]? <;> rfl
  · omega

/-- C08, for bare hashes: two accepted verifications against the same root that take the same number of
rounds agree on every position they both mention — or exhibit a collision between the strings hashed by
the two runs. (The number of rounds matters: a tree's root, at position 0 with an empty proof, is
accepted too.) -/
theorem C08_two_proofs_agree (H : Bytes → Bytes) (hH : ∀ x, (H x).length = 32) (r : Bytes)
    (e₁ e₂ : List (Nat × Bytes)) (p₁ p₂ : List Bytes)
    (hp₁ : ∀ h ∈ p₁, h.length = 32) (hp₂ : ∀ h ∈ p₂, h.length = 32)
    (he₁ : ∀ e ∈ e₁, e.2.length = 32) (he₂ : ∀ e ∈ e₂, e.2.length = 32)
    (hv₁ : verify H r e₁ p₁ = .ok ()) (hv₂ : verify H r e₂ p₂ = .ok ())
    (d : Nat) (t₁ t₂ : List Item)
    (hd₁ : verifyLoop H 64 0
      ((e₁.map (fun e => Item.mk e.1 e.2)).mergeSort (fun a b => decide (a.pos ≤ b.pos))) p₁ = .ok (d, t₁))
    (hd₂ : verifyLoop H 64 0
      ((e₂.map (fun e => Item.mk e.1 e.2)).mergeSort (fun a b => decide (a.pos ≤ b.pos))) p₂ = .ok (d, t₂)) :
    (∀ p h₁ h₂, (p, h₁) ∈ e₁ → (p, h₂) ∈ e₂ → h₁ = h₂) ∨
    ∃ x ∈ verifyLog H e₁ p₁, ∃ y ∈ verifyLog H e₂ p₂, x ≠ y ∧ H x = H y := by
  by_cases hb : ∃ x ∈ verifyLog H e₁ p₁, ∃ y ∈ verifyLog H e₂ p₂, x ≠ y ∧ H x = H y
  · exact Or.inr hb
  refine Or.inl ?_
  intro p h₁ h₂ hm₁ hm₂
  obtain ⟨d₁, u₁, hl₁, hq₁⟩ := verify_paths hH hv₁ (List.ne_nil_of_mem hm₁) he₁ hp₁
  obtain ⟨d₂, u₂, hl₂, hq₂⟩ := verify_paths hH hv₂ (List.ne_nil_of_mem hm₂) he₂ hp₂
  rw [hd₁] at hl₁; rw [hd₂] at hl₂
  injection hl₁ with hl₁; injection hl₁ with hl₁ _
  injection hl₂ with hl₂; injection hl₂ with hl₂ _
  subst hl₁; subst hl₂
  obtain ⟨s₁, a₁, b₁, c₁, f₁⟩ := hq₁ _ hm₁
  obtain ⟨s₂, a₂, b₂, c₂, f₂⟩ := hq₂ _ hm₂
  simp only at c₁ c₂ f₁ f₂
  rcases (climb_unique hH p h₁ h₂ (he₁ _ hm₁) (he₂ _ hm₂) _ s₁ s₂ a₁ a₂ b₁ b₂ (by rw [f₁, f₂])).2 with
    h | ⟨x, hx, y, hy, q⟩
  · exact h
  · exact absurd ⟨x, c₁ x hx, y, c₂ y hy, q⟩ hb

/-- C08, positions: an accepted position is below two to the number of rounds. -/
theorem C08_positions_bounded (H : Bytes → Bytes) (hH : ∀ x, (H x).length = 32) (r : Bytes)
    (elems : List (Nat × Bytes)) (proof : List Bytes) (hp : ∀ h ∈ proof, h.length = 32)
    (he : ∀ e ∈ elems, e.2.length = 32) (hv : verify H r elems proof = .ok ()) (d : Nat) (t : List Item)
    (hd : verifyLoop H 64 0
      ((elems.map (fun e => Item.mk e.1 e.2)).mergeSort (fun a b => decide (a.pos ≤ b.pos))) proof = .ok (d, t)) :
    ∀ e ∈ elems, e.1 < 2 ^ d := by
  intro e hm
  obtain ⟨d', u, hl, hq⟩ := verify_paths hH hv (List.ne_nil_of_mem hm) he hp
  rw [hd] at hl; injection hl with hl; injection hl with hl _; subst hl
  obtain ⟨s, a, _, _, f⟩ := hq e hm
  have h1 := climb_fst H s e.1 e.2
  rw [f, a] at h1
  simp only at h1
  exact (Nat.div_eq_zero_iff_lt (Nat.two_pow_pos d)).1 h1.symm

/-- A toy hash with 32 byte outputs, for the examples. -/
def toyHashA (x : Bytes) : Bytes := ((1 :: UInt8.ofNat x.length :: x.reverse) ++ List.replicate 32 7).take 32

theorem toyHashA_len (x : Bytes) : (toyHashA x).length = 32 := by
  simp [toyHashA]

-- the hypotheses of the binding theorems hold of a real run: a proof for two of three leaves
example : ∃ proof r, (∀ h ∈ proof, h.length = 32) ∧
    root (fromArray toyHashA [⟨.payload, [1]⟩, ⟨.payload, [2]⟩, ⟨.payload, [3]⟩]) = .ok r ∧
    verify toyHashA r ([(2, (⟨.payload, [3]⟩ : ToBeHashed)), (0, ⟨.payload, [1]⟩)].map
      fun c => (c.1, toyHashA (c.2.id.bytes ++ c.2.data))) proof = .ok () := by
  obtain ⟨proof, r, h1, h2, h3⟩ := C07_proofs_verify toyHashA
    [⟨.payload, [1]⟩, ⟨.payload, [2]⟩, ⟨.payload, [3]⟩] (by simp) [2, 0] (by simp) (by simp)
    ([(2, (⟨.payload, [3]⟩ : ToBeHashed)), (0, ⟨.payload, [1]⟩)].map
      fun c => (c.1, toyHashA (c.2.id.bytes ++ c.2.data))) (by simp) (by intro p; simp) (by
      intro e he
      simp only [List.map_cons, List.map_nil, List.mem_cons, List.not_mem_nil, or_false] at he
      rcases he with rfl | rfl
      · exact ⟨_, rfl, rfl⟩
      · exact ⟨_, rfl, rfl⟩)
  exact ⟨proof, r, C07_proof_digests toyHashA toyHashA_len _ _ _ h1, h2, h3⟩

/-- A case of `C08_binding`: a proof that three payloads have 3 at place 2. -/
example (proof : List Bytes) (r : Bytes) (hp : ∀ h ∈ proof, h.length = 32)
    (hr : root (fromArray toyHashA [⟨.payload, [1]⟩, ⟨.payload, [2]⟩, ⟨.payload, [3]⟩]) = .ok r)
    (hv : verify toyHashA r ([(2, (⟨.payload, [4]⟩ : ToBeHashed))].map
      fun c => (c.1, toyHashA (c.2.id.bytes ++ c.2.data))) proof = .ok ()) :
    HashBroken toyHashA (treeStrings toyHashA [⟨.payload, [1]⟩, ⟨.payload, [2]⟩, ⟨.payload, [3]⟩])
      ([(2, (⟨.payload, [4]⟩ : ToBeHashed))].map (fun c => c.2.id.bytes ++ c.2.data) ++
        verifyLog toyHashA ([(2, (⟨.payload, [4]⟩ : ToBeHashed))].map
          fun c => (c.1, toyHashA (c.2.id.bytes ++ c.2.data))) proof) :=
  (C08_binding toyHashA toyHashA_len _ [(2, ⟨.payload, [4]⟩)] proof r hp (by decide) (by decide) hr hv).resolve_left fun h =>
    absurd (h (2, ⟨.payload, [4]⟩) (List.mem_singleton.2 rfl)) (by decide)

/-- A case of `C08_honest_tree` and `C08_two_proofs_agree`: the one leaf of a tree. -/
example (o : ToBeHashed) (e : Bytes) (he : e.length = 32) (r : Bytes)
    (hr : root (fromArray toyHashA [o]) = .ok r) (hv : verify toyHashA r [(0, e)] [] = .ok ()) :
    e = toyHashA (o.id.bytes ++ o.data) ∨ HashBroken toyHashA (treeStrings toyHashA [o]) (verifyLog toyHashA [(0, e)] []) := by
  refine (C08_honest_tree toyHashA toyHashA_len [o] (by simp) [(0, e)] [] r (by simp)
    (by simpa using he) hr hv 0 [⟨0, e⟩] (by simp [verifyLoop]) ⟨by simp, fun _ _ => Nat.zero_le _⟩).imp_left fun h => ?_
  exact h (0, e) (List.mem_singleton.2 rfl)

example (r e : Bytes) (he : e.length = 32) (hv : verify toyHashA r [(0, e)] [] = .ok ()) (p : Nat) (h₁ h₂ : Bytes)
    (m₁ : (p, h₁) ∈ [(0, e)]) (m₂ : (p, h₂) ∈ [(0, e)]) : h₁ = h₂ ∨
    ∃ x ∈ verifyLog toyHashA [(0, e)] [], ∃ y ∈ verifyLog toyHashA [(0, e)] [], x ≠ y ∧ toyHashA x = toyHashA y :=
  (C08_two_proofs_agree toyHashA toyHashA_len r [(0, e)] [(0, e)] [] [] (by simp) (by simp) (by simpa using he) (by simpa using he)
    hv hv 0 [⟨0, e⟩] [⟨0, e⟩] (by simp [verifyLoop]) (by simp [verifyLoop])).imp_left fun h => h p h₁ h₂ m₁ m₂

end Verif.Props
