import Verif.Props.MerkleArray
import Mathlib.Data.List.Perm.Subperm
/-!
# What a merkle array proof consists of, and that it has only one form (C176)
-/

namespace Verif.Props
open Verif Verif.HashId Verif.MerkleArray

/-! ## Positions, level by level -/

/-- The siblings of the given positions that are not among them. -/
def needPos : List Nat → List Nat
  | [] => []
  | [x] => [x ^^^ 1]
  | x :: y :: rest => if y = x ^^^ 1 then needPos rest else (x ^^^ 1) :: needPos (y :: rest)

theorem xor_one_twice (p : Nat) : (p ^^^ 1) ^^^ 1 = p := by
  rw [Nat.xor_assoc]; simp

theorem mem_needPos : ∀ (ps : List Nat), Strict ps → ∀ q, q ∈ needPos ps ↔ (q ^^^ 1 ∈ ps ∧ q ∉ ps)
  | [], _, q => by simp [needPos]
  | [x], _, q => by
    rw [needPos, List.mem_singleton, List.mem_singleton, List.mem_singleton]
    have h1 := xor_one q
    have h2 := xor_one x
    split at h1 <;> split at h2 <;> omega
  | x :: y :: rest, h, q => by
    have hx := (List.pairwise_cons.1 h).1
    have hr := (List.pairwise_cons.1 h).2
    have hy := (List.pairwise_cons.1 hr).1
    have hxy := hx y (by simp)
    have h1 := xor_one q
    have h2 := xor_one x
    rw [needPos]
    by_cases e : y = x ^^^ 1
    · rw [if_pos e, mem_needPos rest (List.pairwise_cons.1 hr).2]
      rw [e] at hxy
      constructor
      · rintro ⟨a, b⟩
        have h3 := hy _ a
        refine ⟨by simp [a], ?_⟩
        simp only [List.mem_cons, not_or]
        split at h1 <;> split at h2 <;> exact ⟨by omega, by omega, b⟩
      · rintro ⟨a, b⟩
        simp only [List.mem_cons, not_or] at a b
        refine ⟨?_, b.2.2⟩
        rcases a with a | a | a
        · exfalso; apply b.2.1; rw [e, ← a, xor_one_twice]
        · exfalso; apply b.1; rw [e] at a; rw [← xor_one_twice q, a, xor_one_twice]
        · exact a
    · rw [if_neg e, List.mem_cons, mem_needPos (y :: rest) hr]
      have hge : ∀ p ∈ y :: rest, y ≤ p := by
        intro p hp
        rcases List.mem_cons.1 hp with rfl | hp
        · omega
        · exact Nat.le_of_lt (hy p hp)
      constructor
      · rintro (rfl | ⟨a, b⟩)
        · refine ⟨by rw [xor_one_twice]; simp, ?_⟩
          intro hm
          rcases List.mem_cons.1 hm with hm | hm
          · split at h2 <;> omega
          · have := hge _ hm
            apply e
            split at h2 <;> omega
        · refine ⟨List.mem_cons_of_mem _ a, ?_⟩
          intro hm
          rcases List.mem_cons.1 hm with rfl | hm
          · have := hge _ a
            apply e
            split at h2 <;> omega
          · exact b hm
      · rintro ⟨a, b⟩
        rcases List.mem_cons.1 a with a | a
        · left; rw [← a, xor_one_twice]
        · exact Or.inr ⟨a, fun hm => b (List.mem_cons_of_mem _ hm)⟩

theorem needPos_strict : ∀ (ps : List Nat), Strict ps → Strict (needPos ps)
  | [], _ => by simp [needPos]
  | [x], _ => by simp [needPos]
  | x :: y :: rest, h => by
    have hx := (List.pairwise_cons.1 h).1
    have hr := (List.pairwise_cons.1 h).2
    have hy := (List.pairwise_cons.1 hr).1
    have hxy := hx y (by simp)
    rw [needPos]
    by_cases e : y = x ^^^ 1
    · rw [if_pos e]; exact needPos_strict rest (List.pairwise_cons.1 hr).2
    · rw [if_neg e]
      refine List.pairwise_cons.2 ⟨?_, needPos_strict (y :: rest) hr⟩
      intro q hq
      obtain ⟨a, _⟩ := (mem_needPos (y :: rest) hr q).1 hq
      have hge : y ≤ q ^^^ 1 := by
        rcases List.mem_cons.1 a with a | a
        · omega
        · exact Nat.le_of_lt (hy _ a)
      have h1 := xor_one q
      have h2 := xor_one x
      split at h1 <;> split at h2 <;> omega

theorem half_nextPos : ∀ (ps : List Nat), ∀ p ∈ ps, p / 2 ∈ nextPos ps
  | [], p, h => by cases h
  | [x], p, h => by simp at h; subst h; simp [nextPos]
  | x :: y :: rest, p, h => by
    rw [nextPos]
    by_cases e : y = x ^^^ 1
    · rw [if_pos e]
      rcases List.mem_cons.1 h with rfl | h
      · simp
      · rcases List.mem_cons.1 h with rfl | h
        · have : p / 2 = x / 2 := by rw [xor_one] at e; split at e <;> omega
          rw [this]; simp
        · exact List.mem_cons_of_mem _ (half_nextPos rest p h)
    · rw [if_neg e]
      rcases List.mem_cons.1 h with rfl | h
      · simp
      · exact List.mem_cons_of_mem _ (half_nextPos (y :: rest) p h)

/-- The hashes of a proof, level by level. -/
def flatHints (levels : List (List Bytes)) : Nat → Nat → List Nat → List Bytes
  | 0, _, _ => []
  | n + 1, l, ps => (needPos ps).map (layerVal ((levels[l]?).getD [])) ++ flatHints levels n (l + 1) (nextPos ps)

theorem up_hints (H : Bytes → Bytes) (levels : List (List Bytes)) (l : Nat) (layer : List Bytes)
    (hl : levels[l]? = some layer) : ∀ (items : List Item) (h0 : List Bytes),
    ∃ items', up H l false items ⟨levels, h0⟩ =
        .ok (items', ⟨levels, h0 ++ (needPos (items.map Item.pos)).map (layerVal layer)⟩) ∧
      items'.map Item.pos = nextPos (items.map Item.pos) := by
  have hne : levels.isEmpty = false := by
    cases levels with
    | nil => simp at hl
    | cons _ _ => rfl
  have hget : ∀ (h : List Bytes) (i : Nat), Siblings.get ⟨levels, h⟩ l i =
      .ok (layerVal layer i, ⟨levels, h ++ [layerVal layer i]⟩) := by
    intro h i; simp [Siblings.get, hne, hl, layerVal]
  intro items
  induction hn : items.length using Nat.strongRecOn generalizing items with
  | ind n ih =>
    intro h0
    match items, hn with
    | [], _ => exact ⟨[], by simp [up, needPos], rfl⟩
    | [x], _ =>
      refine ⟨[⟨x.pos / 2, parentHash H false x.pos x.hash (layerVal layer (x.pos ^^^ 1))⟩], ?_, rfl⟩
      simp only [up, hget, Res.ok_bind, Res.pure_eq, List.map_cons, List.map_nil, needPos]
    | x :: y :: t, hn =>
      simp only [List.map_cons, needPos, nextPos]
      rw [up]
      by_cases e : y.pos = x.pos ^^^ 1
      · obtain ⟨items', e1, e2⟩ := ih t.length (by rw [← hn]; simp; omega) t rfl h0
        rw [if_pos e, if_pos e, if_pos e, e1]
        exact ⟨_, rfl, by rw [List.map_cons, e2]⟩
      · obtain ⟨items', e1, e2⟩ := ih (y :: t).length (by rw [← hn]; simp) (y :: t) rfl
          (h0 ++ [layerVal layer (x.pos ^^^ 1)])
        rw [if_neg e, if_neg e, if_neg e, hget]
        simp only [Res.ok_bind]
        rw [e1]
        refine ⟨⟨x.pos / 2, parentHash H false x.pos x.hash (layerVal layer (x.pos ^^^ 1))⟩ :: items', ?_, ?_⟩
        · simp only [Res.ok_bind, Res.pure_eq, List.append_assoc, List.cons_append, List.nil_append, List.map_cons]
        · rw [List.map_cons, e2]; rfl

theorem proveLoop_hints (H : Bytes → Bytes) (levels : List (List Bytes)) : ∀ (n l : Nat), l + n ≤ levels.length →
    ∀ (items : List Item) (h0 : List Bytes), ∃ items', proveLoop H n l items ⟨levels, h0⟩ =
      .ok (items', ⟨levels, h0 ++ flatHints levels n l (items.map Item.pos)⟩) := by
  intro n
  induction n with
  | zero => intro l _ items h0; exact ⟨items, by simp [proveLoop, flatHints]⟩
  | succ n ih =>
    intro l hle items h0
    have hl : levels[l]? = some levels[l] := List.getElem?_eq_getElem (by omega)
    generalize levels[l] = layer at hl
    obtain ⟨items1, e1, e2⟩ := up_hints H levels l layer hl items h0
    obtain ⟨items2, f1⟩ := ih (l + 1) (by omega) items1
      (h0 ++ (needPos (items.map Item.pos)).map (layerVal layer))
    refine ⟨items2, ?_⟩
    rw [proveLoop, e1]
    simp only [Res.ok_bind]
    rw [f1, flatHints, hl, e2, List.append_assoc]
    rfl

theorem prove_flat (H : Bytes → Bytes) (leaves : List Bytes) (idxs : List Nat) (hne : idxs ≠ [])
    (hlt : ∀ i ∈ idxs, i < leaves.length) : ∃ out, Strict out ∧ (∀ p, p ∈ out ↔ p ∈ idxs) ∧
      prove H (levelsFrom H leaves) idxs =
        .ok (flatHints (levelsFrom H leaves) ((levelsFrom H leaves).length - 1) 0 out) := by
  obtain ⟨out, proof, top, h1, h2, h3, h4, h5, ⟨items', h6⟩, _⟩ := prove_ok H leaves idxs hne hlt
  refine ⟨out, h1, h2, ?_⟩
  have hpos : (mkItems leaves out).map Item.pos = out := by simp [mkItems, Function.comp_def]
  obtain ⟨items'', f⟩ := proveLoop_hints H (levelsFrom H leaves) ((levelsFrom H leaves).length - 1) 0 (by omega)
    (mkItems leaves out) []
  rw [h6, hpos] at f
  injection f with f; injection f with _ f; injection f with _ f
  rw [h3, f, List.nil_append]

/-! ## What a proof consists of -/

/-- Specification: the positions of level `l` whose hashes belong into a proof for the positions `idxs` among `n`
leaves: those without a requested leaf below them whose sibling has one; in ascending order. -/
def specSiblings (n : Nat) (idxs : List Nat) (l : Nat) : List Nat :=
  (List.range (n + 1)).filter fun q =>
    idxs.any (fun p => p / 2 ^ l == q ^^^ 1) && idxs.all (fun p => p / 2 ^ l != q)

theorem needPos_spec (n : Nat) (idxs : List Nat) (hlt : ∀ i ∈ idxs, i < n) (l : Nat) (ps : List Nat)
    (hs : Strict ps) (hm : ∀ q, q ∈ ps ↔ ∃ p ∈ idxs, p / 2 ^ l = q) : needPos ps = specSiblings n idxs l := by
  refine strict_ext _ _ (needPos_strict ps hs) ?_ ?_
  · exact List.Pairwise.filter _ (List.pairwise_lt_range)
  · intro q
    rw [mem_needPos ps hs, specSiblings, List.mem_filter, List.mem_range, hm, hm]
    simp only [Bool.and_eq_true, List.any_eq_true, List.all_eq_true, beq_iff_eq, bne_iff_ne, ne_eq]
    constructor
    · rintro ⟨⟨p, hp, e⟩, b⟩
      refine ⟨?_, ⟨p, hp, e⟩, fun a ha e' => b ⟨a, ha, e'⟩⟩
      have h1 := hlt p hp
      have h2 : p / 2 ^ l ≤ p := Nat.div_le_self _ _
      have h3 := xor_one q
      split at h3 <;> omega
    · rintro ⟨_, h1, h2⟩
      exact ⟨h1, fun ⟨a, ha, e⟩ => h2 a ha e⟩

theorem flatHints_spec (H : Bytes → Bytes) (leaves : List Bytes) (hne : leaves ≠ []) (idxs : List Nat)
    (hlt : ∀ i ∈ idxs, i < leaves.length) : ∀ (n l : Nat) (ps : List Nat), l + n ≤ (levelsFrom H leaves).length →
    Strict ps → (∀ q, q ∈ ps ↔ ∃ p ∈ idxs, p / 2 ^ l = q) →
    flatHints (levelsFrom H leaves) n l ps = (List.range n).flatMap fun i =>
      (specSiblings leaves.length idxs (l + i)).map (specNode H leaves (l + i)) := by
  intro n
  induction n with
  | zero => intro l ps _ _ _; rfl
  | succ n ih =>
    intro l ps hle hs hm
    have hl : (levelsFrom H leaves)[l]? = some (levelsFrom H leaves)[l] := List.getElem?_eq_getElem (by omega)
    generalize (levelsFrom H leaves)[l] = layer at hl
    rw [flatHints, hl, needPos_spec leaves.length idxs hlt l ps hs hm]
    rw [ih (l + 1) (nextPos ps) (by omega) (nextPos_strict ps hs) ?_]
    · rw [List.range_succ_eq_map, List.flatMap_cons, List.flatMap_map]
      congr 1
      · apply List.map_congr_left
        intro q _
        exact (levels_spec H leaves hne l layer hl).2 q
      · congr 1
        funext i
        have : l + 1 + i = l + (i + 1) := by omega
        rw [this]
    · intro q
      constructor
      · intro hq
        obtain ⟨r, hr, e⟩ := mem_nextPos ps q hq
        obtain ⟨p, hp, e'⟩ := (hm r).1 hr
        exact ⟨p, hp, by rw [e, ← e', Nat.pow_succ, Nat.div_div_eq_div_mul]⟩
      · rintro ⟨p, hp, rfl⟩
        have := half_nextPos ps _ ((hm (p / 2 ^ l)).2 ⟨p, hp, rfl⟩)
        rwa [Nat.div_div_eq_div_mul, ← Nat.pow_succ] at this

theorem height_spec (H : Bytes → Bytes) (leaves : List Bytes) (hne : leaves ≠ []) :
    leaves.length ≤ 2 ^ ((levelsFrom H leaves).length - 1) ∧
    ∀ h, leaves.length ≤ 2 ^ h → (levelsFrom H leaves).length - 1 ≤ h := by
  obtain ⟨top, ht, hl, _⟩ := root_levels H leaves hne
  constructor
  · have := ((levels_spec H leaves hne _ top ht).1 1).not.1 (by omega)
    simpa using this
  · intro h hh
    have := levelsFrom_height H h leaves hh
    omega

/-- C176: the proof for a set of positions consists of, for every level below the root and in ascending order within
it, the hashes of exactly those nodes that have no requested leaf below them but whose sibling does (the zero digest for
a node beyond the end of the tree). -/
theorem C176_contents (H : Bytes → Bytes) (array : List ToBeHashed) (idxs : List Nat) (hne : idxs ≠ [])
    (hlt : ∀ i ∈ idxs, i < array.length) :
    ∃ h, array.length ≤ 2 ^ h ∧ (∀ h', array.length ≤ 2 ^ h' → h ≤ h') ∧
      prove H (fromArray H array) idxs = .ok ((List.range h).flatMap fun l =>
        (specSiblings array.length idxs l).map
          (specNode H (array.map fun o => H (o.id.bytes ++ o.data)) l)) := by
  have hlen : (array.map (hashObj H)).length = array.length := by simp
  have hane : array.map (hashObj H) ≠ [] := by
    intro e
    obtain ⟨i, hi⟩ := List.exists_mem_of_ne_nil _ hne
    have := hlt i hi
    rw [← hlen, e] at this; simp at this
  obtain ⟨h1, h2⟩ := height_spec H _ hane
  rw [hlen] at h1 h2
  refine ⟨_, h1, h2, ?_⟩
  obtain ⟨out, ho, hm, hp⟩ := prove_flat H (array.map (hashObj H)) idxs hne (by rw [hlen]; exact hlt)
  rw [fromArray, hp, flatHints_spec H _ hane idxs (by rw [hlen]; exact hlt) _ 0 out (by omega) ho
    (by intro q; rw [hm]; simp)]
  simp only [Nat.zero_add, hlen]
  rfl

theorem specSiblings_one (n p l : Nat) (hp : p < n) : (specSiblings n [p] l).length = 1 := by
  have : specSiblings n [p] l = [(p / 2 ^ l) ^^^ 1] := by
    rw [← needPos_spec n [p] (by simpa using hp) l [p / 2 ^ l] (by simp) (by intro q; simp [eq_comm])]
    rfl
  rw [this]; rfl

theorem specSiblings_le (n : Nat) (idxs : List Nat) (l : Nat) :
    (specSiblings n idxs l).length ≤ idxs.length := by
  have hnd : (specSiblings n idxs l).Nodup := List.Nodup.filter _ List.nodup_range
  have hsub : specSiblings n idxs l ⊆ idxs.map (fun p => (p / 2 ^ l) ^^^ 1) := by
    intro q hq
    rw [specSiblings, List.mem_filter] at hq
    simp only [Bool.and_eq_true, List.any_eq_true, beq_iff_eq] at hq
    obtain ⟨p, hp, e⟩ := hq.2.1
    exact List.mem_map.2 ⟨p, hp, by rw [e, xor_one_twice]⟩
  have := (List.subperm_of_subset hnd hsub).length_le
  simpa using this

/-- C176: a proof for one position has exactly as many hashes as the tree is high, a proof for several at most that many
for each. -/
theorem C176_length (H : Bytes → Bytes) (array : List ToBeHashed) (idxs : List Nat)
    (proof : List Bytes) (hp : prove H (fromArray H array) idxs = .ok proof) (h : Nat)
    (hh : array.length ≤ 2 ^ h ∧ ∀ h', array.length ≤ 2 ^ h' → h ≤ h') :
    (∀ p, idxs = [p] → proof.length = h) ∧ proof.length ≤ idxs.length * h := by
  by_cases hne : idxs = []
  · subst hne
    rw [show prove H (fromArray H array) [] = .ok [] from rfl] at hp
    injection hp with hp; subst hp
    simp
  have hlt := (C09_prove_total H array idxs).2.2 ⟨proof, hp⟩
  obtain ⟨h', a, b, c⟩ := C176_contents H array idxs hne hlt
  have : h' = h := Nat.le_antisymm (b h hh.1) (hh.2 h' a)
  subst this
  rw [hp] at c
  injection c with c
  constructor
  · rintro p rfl
    rw [c, List.length_flatMap]
    simp only [List.length_map]
    have : ((List.range h').map fun l => (specSiblings array.length [p] l).length) = List.replicate h' 1 := by
      rw [List.eq_replicate_iff]
      refine ⟨by simp, ?_⟩
      intro x hx
      obtain ⟨l, _, rfl⟩ := List.mem_map.1 hx
      exact specSiblings_one _ _ _ (hlt p (by simp))
    rw [this]; simp
  · rw [c, List.length_flatMap]
    simp only [List.length_map]
    have : ∀ n, ((List.range n).map fun l => (specSiblings array.length idxs l).length).sum ≤ idxs.length * n := by
      intro n
      induction n with
      | zero => simp
      | succ n ih =>
        rw [List.range_succ, List.map_append, List.sum_append]
        have := specSiblings_le array.length idxs n
        rw [Nat.mul_succ]
        simp only [List.map_cons, List.map_nil, List.sum_cons, List.sum_nil]
        omega
    exact this h'

-- leaves 0 and 2 of three: the hashes of leaf 1 and of the place beside leaf 2
theorem prove_of_three (H : Bytes → Bytes) (a b c : ToBeHashed) : prove H (fromArray H [a, b, c]) [2, 0] =
    .ok [H (b.id.bytes ++ b.data), List.replicate 32 0] := by
  obtain ⟨h, h1, h2, h3⟩ := C176_contents H [a, b, c] [2, 0] (by simp) (by simp)
  have : h = 2 := by
    have a := h2 2 (by simp)
    match h, a, h1 with
    | 0, _, b => simp at b
    | 1, _, b => simp at b
    | 2, _, _ => rfl
  subst this
  rw [h3]
  have e0 : specSiblings 3 [2, 0] 0 = [1, 3] := by decide
  have e1 : specSiblings 3 [2, 0] 1 = [] := by decide
  simp [List.range_succ, e0, e1, specNode]

/-! ## There is only one proof -/

theorem up_back {H : Bytes → Bytes} (layer : List Bytes) (hlay : ∀ p, (layerVal layer p).length = 32)
    (l : Nat) : ∀ (items : List Item) (hints : List Bytes) (items' : List Item) (s' : Siblings),
    up H l true items ⟨[], hints⟩ = .ok (items', s') → Strict (items.map Item.pos) →
    (∀ x ∈ items, x.pos < layer.length) → (∀ x ∈ items, x.hash.length = 32) → (∀ h ∈ hints, h.length = 32) →
    items'.map Item.pos = nextPos (items.map Item.pos) ∧
    ((∀ x ∈ items', x.hash = layerVal (layerUp H layer) x.pos) →
      (∃ x ∈ pairStrings layer, ∃ y ∈ upLog items hints, x ≠ y ∧ H x = H y) ∨
      ((∀ x ∈ items, x.hash = layerVal layer x.pos) ∧
        hints = (needPos (items.map Item.pos)).map (layerVal layer) ++ s'.hints)) := by
  -- one parent
  have step : ∀ (p : Nat) (h s : Bytes), p < layer.length → h.length = 32 → s.length = 32 →
      H (parentString p h s) = layerVal (layerUp H layer) (p / 2) →
      (∃ x ∈ pairStrings layer, x ≠ parentString p h s ∧ H x = H (parentString p h s)) ∨
      (h = layerVal layer p ∧ s = layerVal layer (p ^^^ 1)) := by
    intro p h s hp hh hs e
    have hq : 2 * (p / 2) < layer.length := by omega
    rw [layerVal_up H layer (p / 2) hq] at e
    by_cases heq : pairRep (layerVal layer (2 * (p / 2))) (layerVal layer (2 * (p / 2) + 1)) = parentString p h s
    · right
      rw [parentString] at heq
      rw [xor_one]
      by_cases c : p % 2 = 0
      · rw [if_pos c] at heq ⊢
        obtain ⟨a, b⟩ := pairRep_inj (by rw [hlay, hh]) heq
        have c' : 2 * (p / 2) = p := by omega
        rw [c'] at a b
        exact ⟨a.symm, b.symm⟩
      · rw [if_neg c] at heq ⊢
        obtain ⟨a, b⟩ := pairRep_inj (by rw [hlay, hs]) heq
        have c' : 2 * (p / 2) = p - 1 := by omega
        have c'' : p - 1 + 1 = p := by omega
        rw [c'] at a b
        rw [c''] at b
        exact ⟨b.symm, a.symm⟩
    · exact Or.inl ⟨_, mem_pairStrings layer _ hq, heq, e.symm⟩
  intro items
  induction hn : items.length using Nat.strongRecOn generalizing items with
  | ind n ih =>
    intro hints items' s' hup hstr hlt hil hhl
    match items, hn with
    | [], _ =>
      rw [up] at hup; injection hup with hup; injection hup with h1 h2; subst h1; subst h2
      exact ⟨rfl, fun _ => Or.inr ⟨by simp, by simp [needPos]⟩⟩
    | [x], _ =>
      cases hints with
      | nil => simp [up, Siblings.get] at hup
      | cons h r =>
        simp only [up, Siblings.get, List.isEmpty_nil, if_true, Res.ok_bind, Res.pure_eq] at hup
        injection hup with hup; injection hup with h1 h2; subst h1; subst h2
        refine ⟨rfl, fun hv => ?_⟩
        have hv := hv _ (List.mem_singleton.2 rfl)
        rw [parentHash_true] at hv
        rcases step _ _ _ (hlt x (by simp)) (hil x (by simp)) (hhl h (by simp)) hv with ⟨z, hz, hne, he⟩ | ⟨a, b⟩
        · exact Or.inl ⟨z, hz, _, by simp [upLog], hne, he⟩
        · exact Or.inr ⟨by simpa using a, by simp [needPos, b]⟩
    | x :: y :: t, hn =>
      simp only [List.map_cons] at hstr
      simp only [List.map_cons, nextPos, needPos]
      rw [upLog]
      rw [up] at hup
      by_cases e : y.pos = x.pos ^^^ 1
      · rw [if_pos e] at hup
        obtain ⟨⟨more, s1⟩, h1, h2⟩ := Res.bind_eq_ok.1 hup
        simp only [Res.pure_eq] at h2
        injection h2 with h2; injection h2 with h2 h3; subst h2; subst h3
        obtain ⟨g1, g2⟩ := ih t.length (by rw [← hn]; simp; omega) t rfl hints more s1 h1
          (List.pairwise_cons.1 (List.pairwise_cons.1 hstr).2).2 (fun z hz => hlt z (by simp [hz]))
          (fun z hz => hil z (by simp [hz])) hhl
        rw [if_pos e, if_pos e, if_pos e]
        refine ⟨by rw [List.map_cons, g1], fun hv => ?_⟩
        have hv1 := hv _ (List.mem_cons_self)
        rw [parentHash_true] at hv1
        rcases g2 (fun z hz => hv z (List.mem_cons_of_mem _ hz)) with ⟨z, hz, w, hw, q⟩ | ⟨a1, a2⟩
        · exact Or.inl ⟨z, hz, w, List.mem_cons_of_mem _ hw, q⟩
        · rcases step _ _ _ (hlt x (by simp)) (hil x (by simp)) (hil y (by simp)) hv1 with ⟨z, hz, q⟩ | ⟨a, b⟩
          · exact Or.inl ⟨z, hz, _, List.mem_cons_self, q⟩
          · refine Or.inr ⟨?_, a2⟩
            intro z hz
            rcases List.mem_cons.1 hz with rfl | hz
            · exact a
            · rcases List.mem_cons.1 hz with rfl | hz
              · rw [e]; exact b
              · exact a1 z hz
      · rw [if_neg e] at hup
        cases hints with
        | nil => simp [Siblings.get] at hup
        | cons h r =>
          simp only [Siblings.get, List.isEmpty_nil, if_true, Res.ok_bind] at hup
          obtain ⟨⟨more, s1⟩, h1, h2⟩ := Res.bind_eq_ok.1 hup
          simp only [Res.pure_eq] at h2
          injection h2 with h2; injection h2 with h2 h3; subst h2; subst h3
          obtain ⟨g1, g2⟩ := ih (y :: t).length (by rw [← hn]; simp) (y :: t) rfl r more s1 h1
            (by simpa using (List.pairwise_cons.1 hstr).2)
            (fun z hz => hlt z (List.mem_cons_of_mem _ hz))
            (fun z hz => hil z (List.mem_cons_of_mem _ hz)) (fun a ha => hhl a (List.mem_cons_of_mem _ ha))
          rw [if_neg e, if_neg e, if_neg e]
          simp only [List.headD_cons, List.tail_cons]
          refine ⟨by rw [List.map_cons, g1]; rfl, fun hv => ?_⟩
          have hv1 := hv _ (List.mem_cons_self)
          rw [parentHash_true] at hv1
          rcases g2 (fun z hz => hv z (List.mem_cons_of_mem _ hz)) with ⟨z, hz, w, hw, q⟩ | ⟨a1, a2⟩
          · exact Or.inl ⟨z, hz, w, List.mem_cons_of_mem _ hw, q⟩
          · rcases step _ _ _ (hlt x (by simp)) (hil x (by simp)) (hhl h (by simp)) hv1 with ⟨z, hz, q⟩ | ⟨a, b⟩
            · exact Or.inl ⟨z, hz, _, List.mem_cons_self, q⟩
            · refine Or.inr ⟨?_, ?_⟩
              · intro z hz
                rcases List.mem_cons.1 hz with rfl | hz
                · exact a
                · exact a1 z hz
              · rw [List.map_cons, List.cons_append, ← b]
                congr 1

theorem loop_back {H : Bytes → Bytes} (hH : ∀ x, (H x).length = 32) (levels : List (List Bytes))
    (hsh : Shape H levels) (hlen : ∀ lay ∈ levels, ∀ h ∈ lay, h.length = 32) (top : List Bytes)
    (htop : levels[levels.length - 1]? = some top) :
    ∀ (n k l l0 : Nat) (layer : List Bytes) (pl : List Item) (hints : List Bytes), levels[l]? = some layer →
    l + n + 1 = levels.length → verifyLoop H k l0 pl hints = .ok (l0 + n, [⟨0, layerVal top 0⟩]) →
    Strict (pl.map Item.pos) → (∀ x ∈ pl, x.pos < layer.length) → (∀ x ∈ pl, x.hash.length = 32) →
    (∀ h ∈ hints, h.length = 32) →
    (∃ x ∈ levels.dropLast.flatMap pairStrings, ∃ y ∈ loopLog H k pl hints, x ≠ y ∧ H x = H y) ∨
    ((∀ x ∈ pl, x.hash = layerVal layer x.pos) ∧ hints = flatHints levels n l (pl.map Item.pos)) := by
  intro n
  induction n with
  | zero =>
    intro k l l0 layer pl hints hl hn hv hstr hlt hil hhl
    right
    rw [verifyLoop] at hv
    split at hv
    · split at hv
      · rename_i pl1 s1 hup
        obtain ⟨_, g2, g3, _⟩ := up_paths hH l0 pl hints pl1 s1 hup hil hhl
        cases k with
        | zero => cases hv
        | succ k =>
          obtain ⟨d, e, _⟩ := verifyLoop_paths hH k (l0 + 1) pl1 s1.hints _ _ hv g3 g2
          omega
      · cases hv
      · cases hv
    · rename_i hc
      injection hv with hv; injection hv with _ hv; subst hv
      have : levels.length - 1 = l := by omega
      rw [this, hl] at htop; injection htop with htop; subst htop
      simp at hc
      exact ⟨by simp, by simp [flatHints, hc]⟩
  | succ n ih =>
    intro k l l0 layer pl hints hl hn hv hstr hlt hil hhl
    have hl1 := hsh.chain l layer hl (by omega)
    rw [verifyLoop] at hv
    split at hv
    · rename_i hc
      split at hv
      · rename_i pl1 s1 hup
        obtain ⟨_, g2, g3, _⟩ := up_paths hH l0 pl hints pl1 s1 hup hil hhl
        obtain ⟨f1, f2⟩ := up_back layer (layerVal_len hH layer (hlen layer (List.mem_of_getElem? hl))) l0 pl hints
          pl1 s1 hup hstr hlt hil hhl
        cases k with
        | zero => cases hv
        | succ k =>
          simp only at hv
          have hlog : ∀ y, y ∈ upLog pl hints ∨ y ∈ loopLog H k pl1 s1.hints → y ∈ loopLog H (k + 1) pl hints := by
            intro y hy
            rw [loopLog, hc]
            simp only [if_true]
            rw [up_level H 0 l0, hup]
            exact List.mem_append.2 hy
          rcases ih k (l + 1) (l0 + 1) (layerUp H layer) pl1 s1.hints hl1 (by omega)
              (by rw [hv]; congr 2; omega) (by rw [f1]; exact nextPos_strict _ hstr) (by
                intro x hx
                have hx' : x.pos ∈ nextPos (pl.map Item.pos) := by rw [← f1]; exact List.mem_map_of_mem hx
                obtain ⟨p, hp, e⟩ := mem_nextPos _ _ hx'
                obtain ⟨z, hz, rfl⟩ := List.mem_map.1 hp
                have := hlt z hz
                rw [layerUp_length]; omega) g3 g2 with ⟨x, hx, y, hy, q⟩ | ⟨a1, a2⟩
          · exact Or.inl ⟨x, hx, y, hlog y (Or.inr hy), q⟩
          · rcases f2 a1 with ⟨x, hx, y, hy, q⟩ | ⟨b1, b2⟩
            · refine Or.inl ⟨x, List.mem_flatMap.2 ⟨layer, ?_, hx⟩, y, hlog y (Or.inl hy), q⟩
              rw [List.mem_iff_getElem?]
              exact ⟨l, by rw [List.getElem?_dropLast, if_pos (by omega)]; exact hl⟩
            · refine Or.inr ⟨b1, ?_⟩
              rw [b2, a2, flatHints, hl, f1]
              rfl
      · cases hv
      · cases hv
    · injection hv with hv; injection hv with hv _
      omega

/-- C176: for claims about objects there is only one proof: whatever proof is accepted against the root of an array is
the one `prove` returns for those positions — or the strings hashed exhibit a collision or a preimage of the zero
digest. -/
theorem C176_one_proof (H : Bytes → Bytes) (hH : ∀ x, (H x).length = 32) (array : List ToBeHashed)
    (claims : List (Nat × ToBeHashed)) (proof : List Bytes) (r : Bytes)
    (hnd : (claims.map Prod.fst).Nodup) (hp : ∀ h ∈ proof, h.length = 32)
    (harr : ∀ o ∈ array, o.id ≠ .merkleArrayNode) (hcl : ∀ c ∈ claims, c.2.id ≠ .merkleArrayNode)
    (hr : root (fromArray H array) = .ok r)
    (hv : verify H r (claims.map fun c => (c.1, H (c.2.id.bytes ++ c.2.data))) proof = .ok ()) :
    prove H (fromArray H array) (claims.map Prod.fst) = .ok proof ∨
    HashBroken H (treeStrings H array)
      (claims.map (fun c => c.2.id.bytes ++ c.2.data) ++
        verifyLog H (claims.map fun c => (c.1, H (c.2.id.bytes ++ c.2.data))) proof) := by
  by_cases hb : HashBroken H (treeStrings H array)
      (claims.map (fun c => c.2.id.bytes ++ c.2.data) ++
        verifyLog H (claims.map fun c => (c.1, H (c.2.id.bytes ++ c.2.data))) proof)
  · exact Or.inr hb
  left
  by_cases hcn : claims = []
  · subst hcn
    rw [((C07_empty H array r proof).2).1 hv]
    rfl
  have htrue := (C08_binding H hH array claims proof r hp harr hcl hr hv).resolve_right hb
  obtain ⟨c, hc⟩ := List.exists_mem_of_ne_nil _ hcn
  have hin : ∀ i ∈ claims.map Prod.fst, i < array.length := by
    intro i hi
    obtain ⟨c, hc, rfl⟩ := List.mem_map.1 hi
    exact (List.getElem?_eq_some_iff.1 (htrue c hc)).1
  have hane : array ≠ [] := by
    rintro rfl
    have := htrue c hc
    simp at this
  have hlne : array.map (hashObj H) ≠ [] := by simpa using hane
  obtain ⟨topl, ht, htl, hr'⟩ := root_levels H _ hlne
  have hr0 := hr
  rw [fromArray] at hr
  rw [hr] at hr'; injection hr' with hr'; subst hr'
  have hlen := levels_len hH (array.map (hashObj H)) (by
    intro h hh
    obtain ⟨o, _, rfl⟩ := List.mem_map.1 hh
    exact hH _)
  have hsh := levelsFrom_shape H _ hlne
  have h0 := levelsFrom_zero H (array.map (hashObj H))
  have hpos : 0 < (levelsFrom H (array.map (hashObj H))).length := List.length_pos_iff.2 (levelsFrom_ne_nil _ _)
  have hne : (claims.map fun c => (c.1, H (c.2.id.bytes ++ c.2.data))) ≠ [] := by simpa using hcn
  have hel : ∀ e ∈ (claims.map fun c => (c.1, H (c.2.id.bytes ++ c.2.data))), e.2.length = 32 := by
    intro e he
    obtain ⟨c, _, rfl⟩ := List.mem_map.1 he
    exact hH _
  obtain ⟨d, pl', hloop, hpath⟩ := verify_paths hH hv hne hel hp
  -- the number of rounds is the height of the tree
  have hd : d = (levelsFrom H (array.map (hashObj H))).length - 1 := by
    obtain ⟨ss, hss, hsl, hlog, hclimb⟩ := hpath _ (List.mem_map.2 ⟨c, hc, rfl⟩)
    simp only at hss hlog hclimb
    have hcs : c.2.id.bytes ++ c.2.data ∈ claims.map (fun c => c.2.id.bytes ++ c.2.data) :=
      List.mem_map.2 ⟨c, hc, rfl⟩
    rcases descend hH _ hsh hlen c.1 (H (c.2.id.bytes ++ c.2.data)) (hH _) d ss _ topl hss hsl ht
        (by rw [hclimb]) with
      ⟨x, hx, y, hy, q⟩ | ⟨y, hy, q⟩ | ⟨h1, low, h2, h3⟩ | ⟨h1, low, y, q, h2, hy, ⟨l, rr, hyr⟩, h4⟩
    · exact absurd (Or.inl ⟨x, List.mem_append_right _ hx, y, List.mem_append_right _ (hlog y hy), q⟩) hb
    · exact absurd (Or.inr ⟨y, List.mem_append_right _ (hlog y hy), q⟩) hb
    · by_cases hd : (levelsFrom H (array.map (hashObj H))).length - 1 - d = 0
      · omega
      · exfalso
        obtain ⟨j, hj⟩ : ∃ j, (levelsFrom H (array.map (hashObj H))).length - 1 - d = j + 1 :=
          ⟨_, (Nat.succ_pred hd).symm⟩
        rw [hj] at h2
        have hlt := (List.getElem?_eq_some_iff.1 h2).1
        have hprev : (levelsFrom H (array.map (hashObj H)))[j]? =
            some (levelsFrom H (array.map (hashObj H)))[j] := List.getElem?_eq_getElem (by omega)
        generalize (levelsFrom H (array.map (hashObj H)))[j] = prev at hprev
        have hup := hsh.chain j prev hprev hlt
        rw [h2] at hup; injection hup with hup; subst hup
        by_cases hq : 2 * c.1 < prev.length
        · rw [layerVal_up H prev _ hq] at h3
          have hmem : pairRep (layerVal prev (2 * c.1)) (layerVal prev (2 * c.1 + 1)) ∈ treeStrings H array := by
            refine List.mem_append_right _ (List.mem_flatMap.2 ⟨prev, ?_, mem_pairStrings prev _ hq⟩)
            rw [fromArray, List.mem_iff_getElem?]
            exact ⟨j, by rw [List.getElem?_dropLast, if_pos (by omega)]; exact hprev⟩
          refine hb (Or.inl ⟨_, hmem, _, List.mem_append_left _ hcs, ?_, h3.symm⟩)
          intro e
          have := C14_domain_separation ⟨.merkleArrayNode, _⟩ c.2 e
          exact hcl c hc (by rw [← this])
        · refine hb (Or.inr ⟨_, List.mem_append_left _ hcs, ?_⟩)
          rw [h3, layerVal, List.getElem?_eq_none (by rw [layerUp_length]; omega)]; rfl
    · exfalso
      rw [h0] at h2; injection h2 with h2; subst h2
      rw [layerVal, List.getElem?_map] at h4
      cases ho : array[q]? with
      | none =>
        rw [ho] at h4
        exact hb (Or.inr ⟨y, List.mem_append_right _ (hlog y hy), h4⟩)
      | some o =>
        rw [ho] at h4
        refine hb (Or.inl ⟨o.id.bytes ++ o.data, List.mem_append_left _ (List.mem_map.2
          ⟨o, List.mem_of_getElem? ho, rfl⟩), y, List.mem_append_right _ (hlog y hy), ?_, h4.symm⟩)
        intro e'
        rw [hyr] at e'
        have := C14_domain_separation o ⟨.merkleArrayNode, _⟩ e'
        exact harr o (List.mem_of_getElem? ho) (by rw [this])
  -- the last item
  have hpl' : pl' = [⟨0, layerVal topl 0⟩] := by
    obtain ⟨ss, hss, hsl, hlog, hclimb⟩ := hpath _ (List.mem_map.2 ⟨c, hc, rfl⟩)
    have hie : (claims.map fun c => (c.1, H (c.2.id.bytes ++ c.2.data))).isEmpty = false := by
      simpa using hcn
    rw [verify, hie] at hv
    simp only [Bool.false_eq_true, if_false] at hv
    rw [hloop] at hv
    simp only [Res.ok_bind] at hv
    have hle : pl'.length ≤ 1 := by
      have hperm := List.mergeSort_perm ((claims.map fun c => (c.1, H (c.2.id.bytes ++ c.2.data))).map
        (fun e => Item.mk e.1 e.2)) (fun a b => decide (a.pos ≤ b.pos))
      obtain ⟨_, _, e, _⟩ := verifyLoop_paths hH 64 0 _ proof d pl' hloop (by
        intro x hx
        obtain ⟨e, he, rfl⟩ := List.mem_map.1 (hperm.mem_iff.1 hx)
        exact hel e he) hp
      exact e
    match pl', hle, hv with
    | [a], _, hv =>
      simp only at hv
      split at hv
      · cases hv
      · rename_i hc'
        simp only [ne_eq, not_or, not_not] at hc'
        obtain ⟨ap, ah⟩ := a
        obtain ⟨rfl, rfl⟩ := hc'
        rfl
  -- the sorted items
  have hperm := List.mergeSort_perm ((claims.map fun c => (c.1, H (c.2.id.bytes ++ c.2.data))).map
    (fun e => Item.mk e.1 e.2)) (fun a b => decide (a.pos ≤ b.pos))
  have hpw := List.pairwise_mergeSort (le := fun a b : Item => decide (a.pos ≤ b.pos))
    (by intro a b c; simp; omega) (by intro a b; simp; omega)
    ((claims.map fun c => (c.1, H (c.2.id.bytes ++ c.2.data))).map (fun e => Item.mk e.1 e.2))
  rw [verifyLog] at hb
  generalize ((claims.map fun c => (c.1, H (c.2.id.bytes ++ c.2.data))).map
    (fun e => Item.mk e.1 e.2)).mergeSort (fun a b => decide (a.pos ≤ b.pos)) = sorted at hperm hpw hloop hb
  have hpp : (sorted.map Item.pos).Perm (claims.map Prod.fst) := by
    have h1 := hperm.map Item.pos
    rw [map_pos_mk] at h1
    simpa [Function.comp_def] using h1
  have hstrict : Strict (sorted.map Item.pos) := by
    have hle : (sorted.map Item.pos).Pairwise (· ≤ ·) := by
      rw [List.pairwise_map]
      exact hpw.imp (by intro a b h; simpa using h)
    have := hle.and (hpp.nodup_iff.2 hnd)
    exact this.imp (by intro a b h; exact Nat.lt_of_le_of_ne h.1 h.2)
  rcases loop_back hH _ hsh hlen topl ht d 64 0 0 _ sorted proof h0 (by omega)
      (by rw [hloop, hpl', Nat.zero_add]) hstrict (by
        intro x hx
        have := hin x.pos (hpp.mem_iff.1 (List.mem_map_of_mem hx))
        simpa using this) (by
        intro x hx
        obtain ⟨e, he, rfl⟩ := List.mem_map.1 (hperm.mem_iff.1 hx)
        exact hel e he) hp with ⟨x, hx, y, hy, q⟩ | ⟨_, b⟩
  · exact absurd (Or.inl ⟨x, List.mem_append_right _ hx, y, List.mem_append_right _ hy, q⟩) hb
  · obtain ⟨out, ho, hm, hpr⟩ := prove_flat H (array.map (hashObj H)) (claims.map Prod.fst) (by simpa using hcn)
      (by simpa using hin)
    have : out = sorted.map Item.pos := strict_ext _ _ ho hstrict (by intro p; rw [hm, hpp.mem_iff])
    rw [fromArray, hpr, this, b, hd]

/-- C176: no proof is shorter, or longer, than the one returned. -/
theorem C176_same_length (H : Bytes → Bytes) (hH : ∀ x, (H x).length = 32) (array : List ToBeHashed)
    (claims : List (Nat × ToBeHashed)) (proof proof' : List Bytes) (r : Bytes)
    (hnd : (claims.map Prod.fst).Nodup) (hp : ∀ h ∈ proof, h.length = 32)
    (harr : ∀ o ∈ array, o.id ≠ .merkleArrayNode) (hcl : ∀ c ∈ claims, c.2.id ≠ .merkleArrayNode)
    (hr : root (fromArray H array) = .ok r)
    (hv : verify H r (claims.map fun c => (c.1, H (c.2.id.bytes ++ c.2.data))) proof = .ok ())
    (hpr : prove H (fromArray H array) (claims.map Prod.fst) = .ok proof') (hdiff : proof ≠ proof') :
    HashBroken H (treeStrings H array)
      (claims.map (fun c => c.2.id.bytes ++ c.2.data) ++
        verifyLog H (claims.map fun c => (c.1, H (c.2.id.bytes ++ c.2.data))) proof) := by
  rcases C176_one_proof H hH array claims proof r hnd hp harr hcl hr hv with h | h
  · rw [hpr] at h; injection h with h
    exact absurd h.symm hdiff
  · exact h

-- the hypotheses hold of a real run
example : ∃ proof r, (∀ h ∈ proof, h.length = 32) ∧
    root (fromArray toyHashA [⟨.payload, [1]⟩, ⟨.payload, [2]⟩, ⟨.payload, [3]⟩]) = .ok r ∧
    verify toyHashA r ([(2, (⟨.payload, [3]⟩ : ToBeHashed)), (0, ⟨.payload, [1]⟩)].map
      fun c => (c.1, toyHashA (c.2.id.bytes ++ c.2.data))) proof = .ok () ∧
    proof = [toyHashA [0x50, 0x4c, 2], List.replicate 32 0] := by
  obtain ⟨proof, r, h1, h2, h3⟩ := C07_proofs_verify toyHashA
    [⟨.payload, [1]⟩, ⟨.payload, [2]⟩, ⟨.payload, [3]⟩] (by simp) [2, 0] (by simp) (by simp)
    ([(2, (⟨.payload, [3]⟩ : ToBeHashed)), (0, ⟨.payload, [1]⟩)].map
      fun c => (c.1, toyHashA (c.2.id.bytes ++ c.2.data))) (by simp) (by intro p; simp) (by
      intro e he
      simp only [List.map_cons, List.map_nil, List.mem_cons, List.not_mem_nil, or_false] at he
      rcases he with rfl | rfl
      · exact ⟨_, rfl, rfl⟩
      · exact ⟨_, rfl, rfl⟩)
  refine ⟨proof, r, C07_proof_digests toyHashA toyHashA_len _ _ _ h1, h2, h3, ?_⟩
  rw [prove_of_three] at h1
  injection h1 with h1
  exact h1.symm

/-- A case of `C176_contents` and `C176_length`: place 1 of three has a proof of two digests. -/
example (H : Bytes → Bytes) (a b c : ToBeHashed) : ∃ proof, prove H (fromArray H [a, b, c]) [1] = .ok proof ∧ proof.length = 2 := by
  obtain ⟨h, _, _, hp⟩ := C176_contents H [a, b, c] [1] (by simp) (by simp)
  refine ⟨_, hp, (C176_length H _ _ _ hp 2 ⟨by simp, fun h' h2 => ?_⟩).1 1 rfl⟩
  rcases h' with _ | _ | h'
  · simp at h2
  · simp at h2
  · omega

/-- A case of `C176_one_proof`: a proof for place 1 of three is the one that is made. -/
example (a b c : ToBeHashed) (ha : ∀ o ∈ [a, b, c], o.id ≠ .merkleArrayNode) (proof : List Bytes) (hp : ∀ h ∈ proof, h.length = 32)
    (r : Bytes) (hr : root (fromArray toyHashA [a, b, c]) = .ok r)
    (hv : verify toyHashA r ([(1, b)].map fun c => (c.1, toyHashA (c.2.id.bytes ++ c.2.data))) proof = .ok ()) :
    prove toyHashA (fromArray toyHashA [a, b, c]) [1] = .ok proof ∨
    HashBroken toyHashA (treeStrings toyHashA [a, b, c]) ([(1, b)].map (fun c => c.2.id.bytes ++ c.2.data) ++
        verifyLog toyHashA ([(1, b)].map fun c => (c.1, toyHashA (c.2.id.bytes ++ c.2.data))) proof) :=
  C176_one_proof toyHashA toyHashA_len [a, b, c] [(1, b)] proof r (by simp) hp ha
    (fun c hc => by simp only [List.mem_singleton] at hc; subst hc; exact ha b (by simp)) hr hv

end Verif.Props
