import Verif.Model.MerkleArray
import Mathlib.Data.List.Basic
import Mathlib.Data.List.Nodup
/-!
# Lemmas about merkle arrays: structure of the tree, completeness of proofs
-/

namespace Verif.MerkleArray
open Verif Verif.HashId

theorem xor_one (p : Nat) : p ^^^ 1 = if p % 2 = 0 then p + 1 else p - 1 := by
  have h1 : (p ^^^ 1) / 2 = p / 2 := by rw [Nat.xor_div_two]; simp
  have h2 : (p ^^^ 1) % 2 = (p + 1) % 2 := by
    have := Nat.testBit_xor p 1 0
    simp only [Nat.testBit_zero] at this
    rcases Nat.mod_two_eq_zero_or_one (p ^^^ 1) with e' | e' <;>
      rcases Nat.mod_two_eq_zero_or_one p with e | e <;> rw [e', e] at this <;>
      first | omega | simp at this
  split <;> omega

/-- Entry of a layer, the zero hash beyond its end. -/
def layerVal (layer : List Bytes) (p : Nat) : Bytes := (layer[p]?).getD zeroHash

theorem layerUp_get (H : Bytes → Bytes) : ∀ (layer : List Bytes) (q : Nat), q < (layerUp H layer).length →
    (layerUp H layer)[q]? = some (hashPair H (layerVal layer (2 * q)) (layerVal layer (2 * q + 1)))
  | [], q, h => by simp [layerUp] at h
  | [a], q, h => by
    simp [layerUp] at h
    subst h; simp [layerUp, layerVal]
  | a :: b :: rest, q, h => by
    cases q with
    | zero => simp [layerUp, layerVal]
    | succ q =>
      simp [layerUp] at h
      have := layerUp_get H rest q h
      simp only [layerUp, List.getElem?_cons_succ, this, layerVal]
      congr 2

theorem layerVal_up (H : Bytes → Bytes) (layer : List Bytes) (q : Nat) (h : 2 * q < layer.length) :
    layerVal (layerUp H layer) q = hashPair H (layerVal layer (2 * q)) (layerVal layer (2 * q + 1)) := by
  rw [layerVal, layerUp_get H layer q (by rw [layerUp_length]; omega)]; rfl

/-- Positions of the next layer. -/
def nextPos : List Nat → List Nat
  | [] => []
  | [x] => [x / 2]
  | x :: y :: rest => if y = x ^^^ 1 then x / 2 :: nextPos rest else x / 2 :: nextPos (y :: rest)

/-- Strictly increasing. -/
abbrev Strict (l : List Nat) : Prop := l.Pairwise (· < ·)

theorem mem_nextPos : ∀ (ps : List Nat), ∀ q ∈ nextPos ps, ∃ p ∈ ps, q = p / 2
  | [], q, h => by simp [nextPos] at h
  | [x], q, h => by simp [nextPos] at h; exact ⟨x, by simp, h⟩
  | x :: y :: rest, q, h => by
    rw [nextPos] at h
    split at h
    · rcases List.mem_cons.1 h with rfl | h
      · exact ⟨x, by simp, rfl⟩
      · obtain ⟨p, hp, e⟩ := mem_nextPos rest q h
        exact ⟨p, by simp [hp], e⟩
    · rcases List.mem_cons.1 h with rfl | h
      · exact ⟨x, by simp, rfl⟩
      · obtain ⟨p, hp, e⟩ := mem_nextPos (y :: rest) q h
        exact ⟨p, List.mem_cons_of_mem _ hp, e⟩

theorem nextPos_strict : ∀ (ps : List Nat), Strict ps → Strict (nextPos ps)
  | [], _ => by simp [nextPos]
  | [x], _ => by simp [nextPos]
  | x :: y :: rest, h => by
    have hx := (List.pairwise_cons.1 h).1
    have hy := (List.pairwise_cons.1 (List.pairwise_cons.1 h).2).1
    have hxy := hx y (by simp)
    rw [nextPos]
    by_cases e : y = x ^^^ 1
    · rw [if_pos e]
      rw [xor_one] at e
      refine List.pairwise_cons.2 ⟨?_, nextPos_strict rest (List.pairwise_cons.1 (List.pairwise_cons.1 h).2).2⟩
      intro q hq
      obtain ⟨p, hp, rfl⟩ := mem_nextPos rest q hq
      have := hy p hp
      split at e <;> omega
    · rw [if_neg e]
      rw [xor_one] at e
      refine List.pairwise_cons.2 ⟨?_, nextPos_strict (y :: rest) (List.pairwise_cons.1 h).2⟩
      intro q hq
      obtain ⟨p, hp, rfl⟩ := mem_nextPos (y :: rest) q hq
      have : y ≤ p := by
        rcases List.mem_cons.1 hp with rfl | hp
        · omega
        · exact Nat.le_of_lt (hy p hp)
      split at e <;> omega

theorem nextPos_ne_nil : ∀ (ps : List Nat), ps ≠ [] → nextPos ps ≠ []
  | [], h => absurd rfl h
  | [x], _ => by simp [nextPos]
  | x :: y :: rest, _ => by rw [nextPos]; split <;> simp

theorem parentHash_val (H : Bytes → Bytes) (layer : List Bytes) (p : Nat) (hp : p < layer.length) :
    parentHash H true p (layerVal layer p) (layerVal layer (p ^^^ 1)) =
      layerVal (layerUp H layer) (p / 2) := by
  rw [layerVal_up H layer (p / 2) (by omega), parentHash, xor_one]
  simp only [if_true]
  by_cases e : p % 2 = 0
  · rw [if_pos e, if_pos e]
    have : 2 * (p / 2) = p := by omega
    rw [this]
  · rw [if_neg e, if_neg e]
    have h1 : 2 * (p / 2) = p - 1 := by omega
    have h2 : p - 1 + 1 = p := by omega
    rw [h1, h2]

/-- One round of proving and the corresponding round of verifying. -/
theorem up_joint (H : Bytes → Bytes) (levels : List (List Bytes)) (l l' : Nat) (layer : List Bytes)
    (hl : levels[l]? = some layer) : ∀ (items : List Item) (h0 rest : List Bytes),
    Strict (items.map Item.pos) → (∀ x ∈ items, x.pos < layer.length) →
    ∃ hs items', up H l false items ⟨levels, h0⟩ = .ok (items', ⟨levels, h0 ++ hs⟩) ∧
      items'.map Item.pos = nextPos (items.map Item.pos) ∧
      up H l' true (items.map (fun x => ⟨x.pos, layerVal layer x.pos⟩)) ⟨[], hs ++ rest⟩ =
        .ok ((nextPos (items.map Item.pos)).map (fun q => ⟨q, layerVal (layerUp H layer) q⟩), ⟨[], rest⟩) ∧
      (items.length = 1 → hs ≠ []) := by
  have hne : levels.isEmpty = false := by
    cases levels with
    | nil => simp at hl
    | cons _ _ => rfl
  have hget : ∀ (h : List Bytes) (i : Nat), Siblings.get ⟨levels, h⟩ l i =
      .ok (layerVal layer i, ⟨levels, h ++ [layerVal layer i]⟩) := by
    intro h i; simp [Siblings.get, hne, hl, layerVal]
  have hpop : ∀ (x : Bytes) (h : List Bytes) (i : Nat), Siblings.get ⟨[], x :: h⟩ l' i = .ok (x, ⟨[], h⟩) := by
    intro x h i; simp [Siblings.get]
  intro items
  induction hn : items.length using Nat.strongRecOn generalizing items with
  | ind n ih =>
    intro h0 rest hs hlt
    match items, hn, hs, hlt with
    | [], hn, hs, hlt => exact ⟨[], [], by simp [up], rfl, by simp [up, nextPos], by intro h; rw [← hn] at h; simp at h⟩
    | [x], hn, hs, hlt =>
      have hx := hlt x (by simp)
      refine ⟨[layerVal layer (x.pos ^^^ 1)], [⟨x.pos / 2, zeroHash⟩], ?_, rfl, ?_, by simp⟩
      · simp only [up, hget, Res.ok_bind, Res.pure_eq, parentHash, Bool.false_eq_true, if_false]
      · simp only [List.map_cons, List.map_nil, up, List.cons_append, List.nil_append, hpop, Res.ok_bind,
          Res.pure_eq, nextPos, parentHash_val H layer x.pos hx]
    | x :: y :: t, hn, hs, hlt =>
      have hx := hlt x (by simp)
      simp only [List.map_cons] at hs
      by_cases e : y.pos = x.pos ^^^ 1
      · obtain ⟨hs', items', e1, e2, e3, _⟩ := ih t.length (by rw [← hn]; simp; omega) t rfl h0 rest
          (List.pairwise_cons.1 (List.pairwise_cons.1 hs).2).2
          (fun z hz => hlt z (by simp [hz]))
        refine ⟨hs', ⟨x.pos / 2, zeroHash⟩ :: items', ?_, ?_, ?_, by intro h; rw [← hn] at h; simp at h⟩
        · rw [up, if_pos e, e1]
          simp only [Res.ok_bind, Res.pure_eq, parentHash, Bool.false_eq_true, if_false]
        · simp only [List.map_cons, nextPos, if_pos e, e2]
        · simp only [List.map_cons, nextPos, if_pos e]
          rw [up, if_pos e, e3]
          simp only [Res.ok_bind, Res.pure_eq, e, parentHash_val H layer x.pos hx]
      · obtain ⟨hs', items', e1, e2, e3, _⟩ := ih (y :: t).length (by rw [← hn]; simp) (y :: t) rfl
          (h0 ++ [layerVal layer (x.pos ^^^ 1)]) rest (by simpa using (List.pairwise_cons.1 hs).2)
          (fun z hz => hlt z (List.mem_cons_of_mem _ hz))
        refine ⟨layerVal layer (x.pos ^^^ 1) :: hs', ⟨x.pos / 2, zeroHash⟩ :: items', ?_, ?_, ?_, by simp⟩
        · rw [up, if_neg e, hget]
          simp only [Res.ok_bind]
          rw [e1]
          simp only [Res.ok_bind, Res.pure_eq, parentHash, Bool.false_eq_true, if_false, List.append_assoc,
            List.cons_append, List.nil_append]
        · rw [List.map_cons, e2]; simp only [List.map_cons, nextPos, if_neg e]
        · simp only [List.map_cons] at e3 ⊢
          rw [up, if_neg e]
          simp only [List.cons_append, hpop, Res.ok_bind, e3, Res.pure_eq]
          rw [nextPos, if_neg e, parentHash_val H layer x.pos hx, List.map_cons]

/-- The shape of a tree built from a non-empty layer. -/
structure Shape (H : Bytes → Bytes) (levels : List (List Bytes)) : Prop where
  chain : ∀ i layer, levels[i]? = some layer → i + 1 < levels.length →
    levels[i + 1]? = some (layerUp H layer)
  top : ∀ layer, levels[levels.length - 1]? = some layer → layer.length = 1

theorem levelsFrom_ne_nil (H : Bytes → Bytes) (layer : List Bytes) : levelsFrom H layer ≠ [] := by
  rw [levelsFrom]; split <;> simp

theorem levelsFrom_zero (H : Bytes → Bytes) (layer : List Bytes) : (levelsFrom H layer)[0]? = some layer := by
  rw [levelsFrom]; split <;> simp

theorem levelsFrom_shape (H : Bytes → Bytes) (layer : List Bytes) (hne : layer ≠ []) :
    Shape H (levelsFrom H layer) := by
  induction hn : layer.length using Nat.strongRecOn generalizing layer with
  | ind n ih =>
    have hpos : 0 < layer.length := List.length_pos_iff.2 hne
    rw [levelsFrom]
    split
    · rename_i h1
      constructor
      · intro i x hx hi; simp at hi
      · intro x hx; simp at hx; subst hx; omega
    · rename_i h1
      have hl := layerUp_length H layer
      have hs := ih (layerUp H layer).length (by omega) (layerUp H layer)
        (by intro e; rw [e] at hl; simp at hl; omega) rfl
      have hz := levelsFrom_zero H (layerUp H layer)
      have hlen : 0 < (levelsFrom H (layerUp H layer)).length :=
        List.length_pos_iff.2 (levelsFrom_ne_nil H _)
      constructor
      · intro i x hx hi
        cases i with
        | zero =>
          simp at hx; subst hx
          rw [List.getElem?_cons_succ]; exact hz
        | succ i =>
          rw [List.getElem?_cons_succ] at hx ⊢
          exact hs.chain i x hx (by simpa using hi)
      · intro x hx
        apply hs.top
        have : (layer :: levelsFrom H (layerUp H layer)).length - 1 =
            ((levelsFrom H (layerUp H layer)).length - 1) + 1 := by
          rw [List.length_cons]; omega
        rw [this, List.getElem?_cons_succ] at hx
        exact hx

theorem levelsFrom_height (H : Bytes → Bytes) : ∀ (k : Nat) (layer : List Bytes), layer.length ≤ 2 ^ k →
    (levelsFrom H layer).length ≤ k + 1 := by
  intro k
  induction k with
  | zero =>
    intro layer h
    rw [levelsFrom, if_pos (by simpa using h)]; simp
  | succ k ih =>
    intro layer h
    rw [levelsFrom]
    split
    · simp
    · have := ih (layerUp H layer) (by rw [layerUp_length]; rw [Nat.pow_succ] at h; omega)
      rw [List.length_cons]; omega

theorem strict_lt_one {ps : List Nat} (hs : Strict ps) (h : ∀ p ∈ ps, p < 1) (hne : ps ≠ []) : ps = [0] := by
  cases ps with
  | nil => exact absurd rfl hne
  | cons a t =>
    have ha := h a (by simp)
    cases t with
    | nil => simp; omega
    | cons b t =>
      have hb := h b (by simp)
      have := (List.pairwise_cons.1 hs).1 b (by simp)
      omega

/-- All rounds of proving and verifying. -/
theorem loops_joint (H : Bytes → Bytes) (levels : List (List Bytes)) (hsh : Shape H levels) :
    ∀ (n l : Nat) (layer : List Bytes), levels[l]? = some layer → l + n + 1 = levels.length →
    ∀ (items : List Item) (h0 : List Bytes), items ≠ [] → Strict (items.map Item.pos) →
      (∀ x ∈ items, x.pos < layer.length) →
    ∃ hs items' top, proveLoop H n l items ⟨levels, h0⟩ = .ok (items', ⟨levels, h0 ++ hs⟩) ∧
      items'.map Item.pos = [0] ∧ levels[levels.length - 1]? = some top ∧
      ∀ k l', n ≤ k → verifyLoop H k l' (items.map (fun x => ⟨x.pos, layerVal layer x.pos⟩)) hs =
        .ok (l' + n, [⟨0, layerVal top 0⟩]) := by
  intro n
  induction n with
  | zero =>
    intro l layer hl hlen items h0 hne hstr hlt
    have htop : levels[levels.length - 1]? = some layer := by
      have : levels.length - 1 = l := by omega
      rw [this]; exact hl
    have hone := hsh.top layer htop
    have hpos : items.map Item.pos = [0] := strict_lt_one hstr (by
      intro p hp
      obtain ⟨x, hx, rfl⟩ := List.mem_map.1 hp
      have := hlt x hx; omega) (by simpa using hne)
    refine ⟨[], items, layer, by simp [proveLoop], hpos, htop, ?_⟩
    intro k l' _
    have : items.map (fun x => (⟨x.pos, layerVal layer x.pos⟩ : Item)) = [⟨0, layerVal layer 0⟩] := by
      have h2 : items.map (fun x => (⟨x.pos, layerVal layer x.pos⟩ : Item)) =
          (items.map Item.pos).map (fun p => ⟨p, layerVal layer p⟩) := by simp
      rw [h2, hpos]; rfl
    rw [this, verifyLoop]; simp
  | succ n ih =>
    intro l layer hl hlen items h0 hne hstr hlt
    have hl1 := hsh.chain l layer hl (by omega)
    -- later rounds first: they fix the remaining hints
    have hnext : nextPos (items.map Item.pos) ≠ [] := nextPos_ne_nil _ (by simpa using hne)
    have hnlt : ∀ q ∈ nextPos (items.map Item.pos), q < (layerUp H layer).length := by
      intro q hq
      obtain ⟨p, hp, rfl⟩ := mem_nextPos _ q hq
      obtain ⟨x, hx, rfl⟩ := List.mem_map.1 hp
      have := hlt x hx
      rw [layerUp_length]; omega
    obtain ⟨hs1, items1, e1, e2, _, e4⟩ := up_joint H levels l 0 layer hl items h0 [] hstr hlt
    have h1ne : items1 ≠ [] := by
      intro e; rw [e] at e2; simp at e2; exact hnext e2
    obtain ⟨hs2, items2, top, f1, f2, f3, f4⟩ := ih (l + 1) (layerUp H layer) hl1 (by omega) items1
      (h0 ++ hs1) h1ne (by rw [e2]; exact nextPos_strict _ hstr) (by
        intro x hx
        apply hnlt; rw [← e2]; exact List.mem_map_of_mem hx)
    refine ⟨hs1 ++ hs2, items2, top, ?_, f2, f3, ?_⟩
    · rw [proveLoop, e1]; simp only [Res.ok_bind]; rw [f1, List.append_assoc]
    · intro k l' hk
      cases k with
      | zero => omega
      | succ k =>
        obtain ⟨hs1', items1', e1', _, e3', _⟩ := up_joint H levels l l' layer hl items h0 hs2 hstr hlt
        rw [e1] at e1'
        have : hs1 = hs1' := by
          injection e1' with e1'; injection e1' with _ e1'; injection e1' with _ e1'
          exact List.append_cancel_left e1'
        subst this
        rw [verifyLoop]
        have hcond : (!(hs1 ++ hs2).isEmpty || decide ((items.map (fun x =>
            (⟨x.pos, layerVal layer x.pos⟩ : Item))).length > 1)) = true := by
          by_cases h1 : items.length = 1
          · have := e4 h1
            cases hs1 with
            | nil => exact absurd rfl this
            | cons _ _ => simp
          · have : 0 < items.length := List.length_pos_iff.2 hne
            simp; right; omega
        rw [hcond]
        simp only [if_true, e3']
        have hh := f4 k (l' + 1) (by omega)
        have hmap : items1.map (fun x => (⟨x.pos, layerVal (layerUp H layer) x.pos⟩ : Item)) =
            (nextPos (items.map Item.pos)).map (fun q => ⟨q, layerVal (layerUp H layer) q⟩) := by
          rw [← e2]; simp
        rw [hmap] at hh
        rw [hh]
        congr 2
        omega

/-! ## The position list -/

theorem strict_ext : ∀ (l1 l2 : List Nat), Strict l1 → Strict l2 → (∀ x, x ∈ l1 ↔ x ∈ l2) → l1 = l2
  | [], [], _, _, _ => rfl
  | [], b :: _, _, _, h => by have := (h b).2 (by simp); cases this
  | a :: _, [], _, _, h => by have := (h a).1 (by simp); cases this
  | a :: t1, b :: t2, h1, h2, h => by
    obtain ⟨ha, h1'⟩ := List.pairwise_cons.1 h1
    obtain ⟨hb, h2'⟩ := List.pairwise_cons.1 h2
    have hab : a = b := by
      rcases List.mem_cons.1 ((h a).1 (by simp)) with e | e
      · exact e
      · rcases List.mem_cons.1 ((h b).2 (by simp)) with e' | e'
        · exact e'.symm
        · have := ha b e'; have := hb a e; omega
    subst hab
    congr 1
    refine strict_ext t1 t2 h1' h2' (fun x => ⟨fun hx => ?_, fun hx => ?_⟩)
    · rcases List.mem_cons.1 ((h x).1 (List.mem_cons_of_mem _ hx)) with e | e
      · have := ha x hx; omega
      · exact e
    · rcases List.mem_cons.1 ((h x).2 (List.mem_cons_of_mem _ hx)) with e | e
      · have := hb x hx; omega
      · exact e

/-- The collected items for positions `acc`. -/
def mkItems (leaves : List Bytes) (ps : List Nat) : List Item :=
  ps.map (fun p => ⟨p, layerVal leaves p⟩)

theorem collect_ok (leaves : List Bytes) : ∀ (idxs acc : List Nat), idxs.Pairwise (· ≤ ·) → Strict acc →
    (∀ a ∈ acc, ∀ i ∈ idxs, a ≤ i) → (∀ i ∈ idxs, i < leaves.length) →
    ∃ out, collect leaves idxs (mkItems leaves acc) = .ok (mkItems leaves out) ∧ Strict out ∧
      ∀ p, p ∈ out ↔ p ∈ acc ∨ p ∈ idxs := by
  intro idxs
  induction idxs with
  | nil => intro acc _ hs _ _; exact ⟨acc, rfl, hs, by simp⟩
  | cons i rest ih =>
    intro acc hsorted hs hle hlt
    obtain ⟨hi, hrest⟩ := List.pairwise_cons.1 hsorted
    have hilt := hlt i (by simp)
    have hget : leaves[i]? = some (layerVal leaves i) := by
      rw [layerVal]; rw [List.getElem?_eq_getElem hilt]; rfl
    have hlast : ((mkItems leaves acc).getLast?).map Item.pos = acc.getLast? := by
      rw [mkItems, List.getLast?_map, Option.map_map]
      have : (Item.pos ∘ fun p => (⟨p, layerVal leaves p⟩ : Item)) = id := rfl
      rw [this]; simp
    rw [collect, hget]
    simp only [hlast]
    by_cases e : acc.getLast? = some i
    · rw [if_pos e]
      obtain ⟨out, h1, h2, h3⟩ := ih acc hrest hs (fun a ha j hj => hle a ha j (by simp [hj]))
        (fun j hj => hlt j (by simp [hj]))
      refine ⟨out, h1, h2, fun p => ?_⟩
      rw [h3 p, List.mem_cons]
      constructor
      · rintro (h | h)
        · exact Or.inl h
        · exact Or.inr (Or.inr h)
      · rintro (h | rfl | h)
        · exact Or.inl h
        · exact Or.inl (List.mem_of_getLast? e)
        · exact Or.inr h
    · rw [if_neg e]
      have hstr : Strict (acc ++ [i]) := by
        rw [Strict, List.pairwise_append]
        refine ⟨hs, by simp, ?_⟩
        intro a ha j hj
        simp at hj; subst hj
        have hle' := hle a ha j (by simp)
        rcases Nat.lt_or_ge a j with h | h
        · exact h
        · exfalso
          have haj : a = j := by omega
          subst haj
          -- the last entry is at least `a`, hence equal to it
          have hne : acc ≠ [] := List.ne_nil_of_mem ha
          have hl := hle _ (List.getLast_mem hne) a (by simp)
          obtain ⟨ys, y, rfl⟩ := List.eq_nil_or_concat acc |>.resolve_left hne
          rw [List.concat_eq_append] at *
          simp at hl e ha
          rcases ha with h1 | h1
          · rw [Strict, List.pairwise_append] at hs
            have := hs.2.2 a h1 y (by simp); omega
          · exact e h1.symm
      obtain ⟨out, h1, h2, h3⟩ := ih (acc ++ [i]) hrest hstr (by
        intro a ha j hj
        rcases List.mem_append.1 ha with h | h
        · exact hle a h j (by simp [hj])
        · simp at h; subst h; exact hi j hj) (fun j hj => hlt j (by simp [hj]))
      refine ⟨out, ?_, h2, fun p => ?_⟩
      · rw [← h1, mkItems, mkItems, List.map_append]; rfl
      · rw [h3 p]; simp [or_assoc]

theorem collect_err (leaves : List Bytes) : ∀ (idxs : List Nat) (acc : List Item),
    (∃ i ∈ idxs, leaves.length ≤ i) → collect leaves idxs acc = .err () := by
  intro idxs
  induction idxs with
  | nil => intro acc h; obtain ⟨i, hi, _⟩ := h; cases hi
  | cons i rest ih =>
    intro acc h
    rw [collect]
    by_cases hi : leaves.length ≤ i
    · rw [List.getElem?_eq_none hi]
    · have : ∃ j ∈ rest, leaves.length ≤ j := by
        obtain ⟨j, hj, hle⟩ := h
        rcases List.mem_cons.1 hj with rfl | hj
        · exact absurd hle hi
        · exact ⟨j, hj, hle⟩
      rw [List.getElem?_eq_getElem (by omega)]
      simp only
      split <;> exact ih _ this

theorem mergeSort_le (l : List Nat) : (l.mergeSort (fun a b => decide (a ≤ b))).Pairwise (· ≤ ·) := by
  have := List.pairwise_mergeSort (le := fun a b : Nat => decide (a ≤ b))
    (by intro a b c; simp; omega) (by intro a b; simp; omega) l
  exact this.imp (by intro a b h; simpa using h)

/-- What `prove` returns for in-range positions: the hints for their sorted set. -/
theorem prove_ok (H : Bytes → Bytes) (leaves : List Bytes) (idxs : List Nat) (hne : idxs ≠ [])
    (hlt : ∀ i ∈ idxs, i < leaves.length) :
    ∃ out proof top, Strict out ∧ (∀ p, p ∈ out ↔ p ∈ idxs) ∧
      prove H (levelsFrom H leaves) idxs = .ok proof ∧
      (levelsFrom H leaves)[(levelsFrom H leaves).length - 1]? = some top ∧ top.length = 1 ∧
      (∃ items', proveLoop H ((levelsFrom H leaves).length - 1) 0 (mkItems leaves out)
        ⟨levelsFrom H leaves, []⟩ = .ok (items', ⟨levelsFrom H leaves, proof⟩)) ∧
      ∀ k, (levelsFrom H leaves).length - 1 ≤ k →
        verifyLoop H k 0 (mkItems leaves out) proof =
          .ok ((levelsFrom H leaves).length - 1, [⟨0, layerVal top 0⟩]) := by
  have hlne : leaves ≠ [] := by
    rintro rfl
    obtain ⟨i, hi⟩ := List.exists_mem_of_ne_nil _ hne
    have := hlt i hi; simp at this
  have hperm := List.mergeSort_perm idxs (fun a b => decide (a ≤ b))
  obtain ⟨out, c1, c2, c3⟩ := collect_ok leaves (idxs.mergeSort (fun a b => decide (a ≤ b))) []
    (mergeSort_le idxs) List.Pairwise.nil (by simp) (fun i hi => hlt i (hperm.mem_iff.1 hi))
  have hmem : ∀ p, p ∈ out ↔ p ∈ idxs := fun p => by rw [c3 p, hperm.mem_iff]; simp
  have hone : out ≠ [] := by
    obtain ⟨i, hi⟩ := List.exists_mem_of_ne_nil _ hne
    exact List.ne_nil_of_mem ((hmem i).2 hi)
  have hsh := levelsFrom_shape H leaves hlne
  have hlen : 0 < (levelsFrom H leaves).length := List.length_pos_iff.2 (levelsFrom_ne_nil H _)
  have hpos : (mkItems leaves out).map Item.pos = out := by simp [mkItems, Function.comp_def]
  obtain ⟨hs, items', top, g1, g2, g3, g4⟩ := loops_joint H _ hsh ((levelsFrom H leaves).length - 1) 0 leaves
    (levelsFrom_zero H leaves) (by omega) (mkItems leaves out) [] (by simpa [mkItems] using hone)
    (by rw [hpos]; exact c2) (by
      intro x hx
      obtain ⟨p, hp, rfl⟩ := List.mem_map.1 hx
      exact hlt p ((hmem p).1 hp))
  have hmk : (mkItems leaves out).map (fun x => (⟨x.pos, layerVal leaves x.pos⟩ : Item)) = mkItems leaves out := by
    simp [mkItems]
  rw [hmk] at g4
  simp only [List.nil_append] at g1
  refine ⟨out, hs, top, c2, hmem, ?_, g3, hsh.top top g3, ⟨items', g1⟩, ?_⟩
  · have hie : idxs.isEmpty = false := by
      cases idxs with
      | nil => exact absurd rfl hne
      | cons _ _ => rfl
    cases hL : levelsFrom H leaves with
    | nil => exact absurd hL (levelsFrom_ne_nil H leaves)
    | cons l0 tl =>
      have h0 := levelsFrom_zero H leaves
      rw [hL] at h0 g1
      simp only [List.getElem?_cons_zero, Option.some.injEq] at h0
      subst h0
      rw [prove, hie]
      simp only [Bool.false_eq_true, if_false]
      have : collect l0 (idxs.mergeSort (fun a b => decide (a ≤ b))) [] = .ok (mkItems l0 out) := c1
      rw [this]
      simp only [Res.ok_bind, g1]
      have : items'.length = 1 := by
        have := congrArg List.length g2; simpa using this
      simp [this]
  · intro k hk
    have := g4 k 0 hk
    rwa [Nat.zero_add] at this

end Verif.MerkleArray
