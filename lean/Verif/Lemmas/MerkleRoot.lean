import Verif.Lemmas.MerkleArrayBinding
/-!
# Equal roots mean equal layers
-/

namespace Verif.MerkleArray
open Verif Verif.HashId

theorem layerUp_map (H : Bytes → Bytes) : ∀ l : List Bytes, layerUp H l = (pairStrings l).map H
  | [] => rfl
  | [_] => rfl
  | _ :: _ :: rest => by rw [layerUp, pairStrings, List.map_cons, layerUp_map H rest]; rfl

/-- Two layers of which the next ones agree. -/
theorem layerUp_eq (H : Bytes → Bytes) : ∀ (X Y : List Bytes), (∀ h ∈ X, h.length = 32) → (∀ h ∈ Y, h.length = 32) →
    layerUp H X = layerUp H Y →
    X = Y ∨ (∃ x ∈ pairStrings X, ∃ y ∈ pairStrings Y, x ≠ y ∧ H x = H y) ∨ zeroHash ∈ X ∨ zeroHash ∈ Y
  | [], [], _, _, _ => Or.inl rfl
  | [], [_], _, _, h => by simp [layerUp] at h
  | [], _ :: _ :: _, _, _, h => by simp [layerUp] at h
  | [_], [], _, _, h => by simp [layerUp] at h
  | _ :: _ :: _, [], _, _, h => by simp [layerUp] at h
  | [a], [b], hX, hY, h => by
    simp only [layerUp, List.cons.injEq, and_true] at h
    by_cases e : pairRep a zeroHash = pairRep b zeroHash
    · left; rw [(pairRep_inj (by rw [hX a (by simp), hY b (by simp)]) e).1]
    · exact Or.inr (Or.inl ⟨_, by simp [pairStrings], _, by simp [pairStrings], e, h⟩)
  | [a], b :: c :: r, hX, hY, h => by
    simp only [layerUp, List.cons.injEq] at h
    by_cases e : pairRep a zeroHash = pairRep b c
    · right; right; right
      rw [(pairRep_inj (by rw [hX a (by simp), hY b (by simp)]) e).2]; simp
    · exact Or.inr (Or.inl ⟨_, by simp [pairStrings], _, by simp [pairStrings], e, h.1⟩)
  | a :: d :: r, [b], hX, hY, h => by
    simp only [layerUp, List.cons.injEq] at h
    by_cases e : pairRep a d = pairRep b zeroHash
    · right; right; left
      rw [← (pairRep_inj (by rw [hX a (by simp), hY b (by simp)]) e).2]; simp
    · exact Or.inr (Or.inl ⟨_, by simp [pairStrings], _, by simp [pairStrings], e, h.1⟩)
  | a :: d :: r, b :: c :: s, hX, hY, h => by
    simp only [layerUp, List.cons.injEq] at h
    by_cases e : pairRep a d = pairRep b c
    · have e := pairRep_inj (by rw [hX a (by simp), hY b (by simp)]) e
      rcases layerUp_eq H r s (fun h hh => hX h (by simp [hh])) (fun h hh => hY h (by simp [hh])) h.2 with h | h | h
      · left; rw [e.1, e.2, h]
      · obtain ⟨x, hx, y, hy, h⟩ := h
        exact Or.inr (Or.inl ⟨x, by simp [pairStrings, hx], y, by simp [pairStrings, hy], h⟩)
      · rcases h with h | h
        · exact Or.inr (Or.inr (Or.inl (by simp [h])))
        · exact Or.inr (Or.inr (Or.inr (by simp [h])))
    · exact Or.inr (Or.inl ⟨_, by simp [pairStrings], _, by simp [pairStrings], e, h.1⟩)

theorem levelsFrom_one (H : Bytes → Bytes) {X : List Bytes} (h : X.length ≤ 1) : levelsFrom H X = [X] := by
  rw [levelsFrom, if_pos h]

theorem levelsFrom_more (H : Bytes → Bytes) {X : List Bytes} (h : ¬ X.length ≤ 1) :
    levelsFrom H X = X :: levelsFrom H (layerUp H X) := by
  rw [levelsFrom, if_neg h]

theorem dropLast_levels (H : Bytes → Bytes) {X : List Bytes} (h : ¬ X.length ≤ 1) :
    (levelsFrom H X).dropLast = X :: (levelsFrom H (layerUp H X)).dropLast := by
  rw [levelsFrom_more H h]
  exact List.dropLast_cons_of_ne_nil (levelsFrom_ne_nil H _)

theorem root_more (H : Bytes → Bytes) {X : List Bytes} (h : ¬ X.length ≤ 1) :
    root (levelsFrom H X) = root (levelsFrom H (layerUp H X)) := by
  have h0 : (layerUp H X).isEmpty = false := by
    have := layerUp_length H X
    cases hx : layerUp H X with
    | nil => rw [hx] at this; simp at this; omega
    | cons => rfl
  have hX : X.isEmpty = false := by
    cases X with
    | nil => simp at h
    | cons => rfl
  rw [root, root, levelsFrom_zero, levelsFrom_zero]
  simp only [Res.ofOption, Res.ok_bind, h0, hX, Bool.false_eq_true, if_false]
  rw [levelsFrom_more H h, List.getLast?_cons_of_ne_nil (levelsFrom_ne_nil H _)]

theorem root_one (H : Bytes → Bytes) (x : Bytes) : root (levelsFrom H [x]) = .ok x := by
  rw [levelsFrom_one H (by simp)]; rfl

/-- A layer above the first one is the layer above another one. -/
theorem tail_levels (H : Bytes → Bytes) (X : List Bytes) :
    ∀ L ∈ (levelsFrom H X).tail, ∃ L' ∈ (levelsFrom H X).dropLast, L = layerUp H L' := by
  induction hn : X.length using Nat.strongRecOn generalizing X with
  | ind n ih =>
    intro L hL
    by_cases h : X.length ≤ 1
    · rw [levelsFrom_one H h] at hL; simp at hL
    · rw [dropLast_levels H h]
      rw [levelsFrom_more H h, List.tail_cons] at hL
      cases hc : levelsFrom H (layerUp H X) with
      | nil => exact absurd hc (levelsFrom_ne_nil H _)
      | cons Y rest =>
        have h0 := levelsFrom_zero H (layerUp H X)
        rw [hc] at h0
        simp only [List.getElem?_cons_zero, Option.some.injEq] at h0
        rw [hc, List.mem_cons] at hL
        rcases hL with rfl | hL
        · exact ⟨X, by simp, h0⟩
        · obtain ⟨L', hL', e⟩ := ih _ (by rw [layerUp_length]; omega) (layerUp H X) rfl L (by rw [hc]; exact hL)
          exact ⟨L', by simp only [List.mem_cons]; rw [← hc]; exact Or.inr hL', e⟩

/-- Inner node strings of the two trees collide, or some layer holds the digest that stands for a missing node. -/
def TreesBad (H : Bytes → Bytes) (X Y : List Bytes) : Prop :=
  (∃ x ∈ (levelsFrom H X).dropLast.flatMap pairStrings, ∃ y ∈ (levelsFrom H Y).dropLast.flatMap pairStrings,
    x ≠ y ∧ H x = H y) ∨ ∃ L ∈ levelsFrom H X ++ levelsFrom H Y, zeroHash ∈ L

theorem dropLast_sub {L : List Bytes} (H : Bytes → Bytes) {X : List Bytes} (h : L ∈ (levelsFrom H X).dropLast) :
    L ∈ levelsFrom H X := List.dropLast_subset _ h

theorem layerUp_bad {H : Bytes → Bytes} (hH : ∀ x, (H x).length = 32) {X Y L M : List Bytes}
    (hX : ∀ h ∈ X, h.length = 32) (hY : ∀ h ∈ Y, h.length = 32)
    (hL : L ∈ (levelsFrom H X).dropLast) (hM : M ∈ (levelsFrom H Y).dropLast) (h : layerUp H L = layerUp H M) :
    L = M ∨ TreesBad H X Y := by
  have hl := levels_len hH X hX L (dropLast_sub H hL)
  have hm := levels_len hH Y hY M (dropLast_sub H hM)
  rcases layerUp_eq H L M hl hm h with h | ⟨x, hx, y, hy, h⟩ | h | h
  · exact Or.inl h
  · exact Or.inr (Or.inl ⟨x, List.mem_flatMap.2 ⟨L, hL, hx⟩, y, List.mem_flatMap.2 ⟨M, hM, hy⟩, h⟩)
  · exact Or.inr (Or.inr ⟨L, List.mem_append_left _ (dropLast_sub H hL), h⟩)
  · exact Or.inr (Or.inr ⟨M, List.mem_append_right _ (dropLast_sub H hM), h⟩)

theorem TreesBad.up_left {H : Bytes → Bytes} {X Y : List Bytes} (hX : ¬ X.length ≤ 1) (h : TreesBad H (layerUp H X) Y) :
    TreesBad H X Y := by
  rcases h with ⟨x, hx, y, hy, h⟩ | ⟨L, hL, h⟩
  · refine Or.inl ⟨x, ?_, y, hy, h⟩
    rw [dropLast_levels H hX, List.flatMap_cons]; exact List.mem_append_right _ hx
  · refine Or.inr ⟨L, ?_, h⟩
    rw [levelsFrom_more H hX]
    exact List.mem_cons_of_mem _ hL

theorem TreesBad.up_right {H : Bytes → Bytes} {X Y : List Bytes} (hY : ¬ Y.length ≤ 1) (h : TreesBad H X (layerUp H Y)) :
    TreesBad H X Y := by
  rcases h with ⟨x, hx, y, hy, h⟩ | ⟨L, hL, h⟩
  · refine Or.inl ⟨x, hx, y, ?_, h⟩
    rw [dropLast_levels H hY, List.flatMap_cons]; exact List.mem_append_right _ hy
  · refine Or.inr ⟨L, ?_, h⟩
    rw [levelsFrom_more H hY]
    rcases List.mem_append.1 hL with hL | hL
    · exact List.mem_append_left _ hL
    · exact List.mem_append_right _ (List.mem_cons_of_mem _ hL)

/-- Equal roots: equal layers, or one is a higher layer of the other tree, or a hash failure. -/
theorem roots_eq {H : Bytes → Bytes} (hH : ∀ x, (H x).length = 32) : ∀ (n : Nat) (X Y : List Bytes),
    X.length + Y.length = n → X ≠ [] → Y ≠ [] → (∀ h ∈ X, h.length = 32) → (∀ h ∈ Y, h.length = 32) →
    root (levelsFrom H X) = root (levelsFrom H Y) →
    X = Y ∨ X ∈ (levelsFrom H Y).tail ∨ Y ∈ (levelsFrom H X).tail ∨ TreesBad H X Y := by
  intro n
  induction n using Nat.strongRecOn with
  | ind n ih =>
    intro X Y hn hX hY lX lY hr
    have up_ne : ∀ Z : List Bytes, Z ≠ [] → layerUp H Z ≠ [] := by
      intro Z hZ e
      have h1 := layerUp_length H Z
      have h2 := List.length_pos_iff.2 hZ
      rw [e] at h1; simp at h1; omega
    by_cases h1 : X.length ≤ 1 <;> by_cases h2 : Y.length ≤ 1
    · match X, Y, hX, hY, h1, h2 with
      | [x], [y], _, _, _, _ =>
        rw [root_one, root_one] at hr
        left; rw [Res.ok.inj hr]
      | [], _, hX, _, _, _ => exact absurd rfl hX
      | _, [], _, hY, _, _ => exact absurd rfl hY
    · rw [root_more H h2] at hr
      have hu := layerUp_length H Y
      rcases ih _ (by omega) X (layerUp H Y) rfl hX (up_ne Y hY) lX (layerUp_len hH Y) hr with h | h | h | h
      · right; left
        rw [levelsFrom_more H h2, List.tail_cons, h]
        exact List.mem_of_getElem? (levelsFrom_zero H _)
      · right; left
        rw [levelsFrom_more H h2, List.tail_cons]
        exact List.mem_of_mem_tail h
      · rw [levelsFrom_one H h1] at h; simp at h
      · exact Or.inr (Or.inr (Or.inr (h.up_right h2)))
    · rw [root_more H h1] at hr
      have hu := layerUp_length H X
      rcases ih _ (by omega) (layerUp H X) Y rfl (up_ne X hX) hY (layerUp_len hH X) lY hr with h | h | h | h
      · right; right; left
        rw [levelsFrom_more H h1, List.tail_cons, ← h]
        exact List.mem_of_getElem? (levelsFrom_zero H _)
      · rw [levelsFrom_one H h2] at h; simp at h
      · right; right; left
        rw [levelsFrom_more H h1, List.tail_cons]
        exact List.mem_of_mem_tail h
      · exact Or.inr (Or.inr (Or.inr (h.up_left h1)))
    · rw [root_more H h1, root_more H h2] at hr
      have hu := layerUp_length H X
      have hv := layerUp_length H Y
      have mX : X ∈ (levelsFrom H X).dropLast := by rw [dropLast_levels H h1]; simp
      have mY : Y ∈ (levelsFrom H Y).dropLast := by rw [dropLast_levels H h2]; simp
      rcases ih _ (by omega) (layerUp H X) (layerUp H Y) rfl (up_ne X hX) (up_ne Y hY) (layerUp_len hH X)
        (layerUp_len hH Y) hr with h | h | h | h
      · rcases layerUp_bad hH lX lY mX mY h with h | h
        · exact Or.inl h
        · exact Or.inr (Or.inr (Or.inr h))
      · obtain ⟨L', hL', e⟩ := tail_levels H _ _ h
        rcases layerUp_bad hH lX lY mX (M := L') (by rw [dropLast_levels H h2]; exact List.mem_cons_of_mem _ hL') e with h | h
        · right; left
          rw [levelsFrom_more H h2, List.tail_cons, h]
          exact dropLast_sub H hL'
        · exact Or.inr (Or.inr (Or.inr h))
      · obtain ⟨L', hL', e⟩ := tail_levels H _ _ h
        rcases layerUp_bad hH lX lY (L := L') (by rw [dropLast_levels H h1]; exact List.mem_cons_of_mem _ hL') mY e.symm with h | h
        · right; right; left
          rw [levelsFrom_more H h1, List.tail_cons, ← h]
          exact dropLast_sub H hL'
        · exact Or.inr (Or.inr (Or.inr h))
      · exact Or.inr (Or.inr (Or.inr ((h.up_right h2).up_left h1)))

/-- Every digest in a tree is the digest of one of the strings hashed to build it. -/
theorem layer_hashed (H : Bytes → Bytes) (a : List ToBeHashed) :
    ∀ L ∈ fromArray H a, ∀ h ∈ L, ∃ s ∈ treeStrings H a, H s = h := by
  intro L hL h hh
  have h0 := levelsFrom_zero H (a.map (hashObj H))
  rw [fromArray] at hL
  have hsplit : L = a.map (hashObj H) ∨ L ∈ (levelsFrom H (a.map (hashObj H))).tail := by
    cases hc : levelsFrom H (a.map (hashObj H)) with
    | nil => rw [hc] at hL; cases hL
    | cons Z rest =>
      rw [hc] at h0 hL
      simp only [List.getElem?_cons_zero, Option.some.injEq] at h0
      rcases List.mem_cons.1 hL with rfl | hL
      · exact Or.inl h0
      · exact Or.inr hL
  rcases hsplit with rfl | hL
  · obtain ⟨o, ho, rfl⟩ := List.mem_map.1 hh
    exact ⟨hashRep o, List.mem_append_left _ (List.mem_map.2 ⟨o, ho, rfl⟩), rfl⟩
  · obtain ⟨L', hL', rfl⟩ := tail_levels H _ _ hL
    rw [layerUp_map] at hh
    obtain ⟨s, hs, rfl⟩ := List.mem_map.1 hh
    exact ⟨s, List.mem_append_right _ (List.mem_flatMap.2 ⟨L', hL', hs⟩), rfl⟩

theorem pairStrings_form : ∀ (l : List Bytes), ∀ s ∈ pairStrings l, ∃ a b, s = pairRep a b
  | [], s, h => by simp [pairStrings] at h
  | [a], s, h => by simp [pairStrings] at h; exact ⟨_, _, h⟩
  | a :: b :: rest, s, h => by
    rw [pairStrings, List.mem_cons] at h
    rcases h with rfl | h
    · exact ⟨_, _, rfl⟩
    · exact pairStrings_form rest s h

end Verif.MerkleArray
