import Verif.Lemmas.MerkleArray
/-!
# Accepted merkle array proofs contain authentication paths
-/

namespace Verif.MerkleArray
open Verif Verif.HashId

/-- The string hashed to climb from position `p` with hash `h` and sibling `s`. -/
def parentString (p : Nat) (h s : Bytes) : Bytes := if p % 2 = 0 then pairRep h s else pairRep s h

theorem parentHash_true (H : Bytes → Bytes) (p : Nat) (h s : Bytes) :
    parentHash H true p h s = H (parentString p h s) := by
  rw [parentHash, parentString]
  simp only [if_true]
  split <;> rfl

/-- Climb an authentication path. -/
def climb (H : Bytes → Bytes) : Nat → Bytes → List Bytes → Nat × Bytes
  | p, h, [] => (p, h)
  | p, h, s :: ss => climb H (p / 2) (H (parentString p h s)) ss

/-- The strings hashed while climbing. -/
def climbStrings (H : Bytes → Bytes) : Nat → Bytes → List Bytes → List Bytes
  | _, _, [] => []
  | p, h, s :: ss => parentString p h s :: climbStrings H (p / 2) (H (parentString p h s)) ss

theorem climb_concat (H : Bytes → Bytes) (s : Bytes) : ∀ (ss : List Bytes) (p : Nat) (h : Bytes),
    climb H p h (ss ++ [s]) = ((climb H p h ss).1 / 2, H (parentString (climb H p h ss).1 (climb H p h ss).2 s))
  | [], p, h => rfl
  | t :: ss, p, h => by simp only [List.cons_append, climb]; exact climb_concat H s ss _ _

theorem climbStrings_concat (H : Bytes → Bytes) (s : Bytes) : ∀ (ss : List Bytes) (p : Nat) (h : Bytes),
    climbStrings H p h (ss ++ [s]) =
      climbStrings H p h ss ++ [parentString (climb H p h ss).1 (climb H p h ss).2 s]
  | [], p, h => rfl
  | t :: ss, p, h => by simp only [List.cons_append, climbStrings, climb, climbStrings_concat H s ss]

theorem climb_len {H : Bytes → Bytes} (hH : ∀ x, (H x).length = 32) : ∀ (ss : List Bytes) (p : Nat) (h : Bytes),
    h.length = 32 → (climb H p h ss).2.length = 32
  | [], _, _, hh => hh
  | s :: ss, p, h, _ => by rw [climb]; exact climb_len hH ss _ _ (hH _)

/-- The strings hashed by one round of verification (a round that runs out of hints fails, so the
default is never used in a run that accepts). -/
def upLog : List Item → List Bytes → List Bytes
  | [], _ => []
  | [x], hints => [parentString x.pos x.hash (hints.headD [])]
  | x :: y :: rest, hints =>
    if y.pos = x.pos ^^^ 1 then parentString x.pos x.hash y.hash :: upLog rest hints
    else parentString x.pos x.hash (hints.headD []) :: upLog (y :: rest) hints.tail

/-- The strings hashed by `verify` on the items `pl` (at most `k + 1` rounds). -/
def loopLog (H : Bytes → Bytes) : Nat → List Item → List Bytes → List Bytes
  | k, pl, hints =>
    if !hints.isEmpty || decide (pl.length > 1) then
      upLog pl hints ++
      match up H 0 true pl ⟨[], hints⟩ with
      | .ok (pl, s) => (match k with
        | 0 => []
        | k + 1 => loopLog H k pl s.hints)
      | _ => []
    else []

/-- The strings hashed by `verify`. -/
def verifyLog (H : Bytes → Bytes) (elems : List (Nat × Bytes)) (proof : List Bytes) : List Bytes :=
  loopLog H 64 ((elems.map (fun e => Item.mk e.1 e.2)).mergeSort (fun a b => decide (a.pos ≤ b.pos))) proof

theorem pop_level (hints : List Bytes) (l l' i i' : Nat) :
    Siblings.get ⟨[], hints⟩ l i = Siblings.get ⟨[], hints⟩ l' i' := by
  simp [Siblings.get]

/-- In proof mode the level does not matter. -/
theorem up_level (H : Bytes → Bytes) (l l' : Nat) (b : Bool) : ∀ (items : List Item) (hints : List Bytes),
    up H l b items ⟨[], hints⟩ = up H l' b items ⟨[], hints⟩ := by
  intro items
  induction hn : items.length using Nat.strongRecOn generalizing items with
  | ind n ih =>
    intro hints
    match items, hn with
    | [], _ => rfl
    | [x], _ => rw [up, up, pop_level hints l l' _ (x.pos ^^^ 1)]
    | x :: y :: t, hn =>
      rw [up, up]
      by_cases e : y.pos = x.pos ^^^ 1
      · rw [if_pos e, if_pos e, ih t.length (by rw [← hn]; simp; omega) t rfl]
      · rw [if_neg e, if_neg e, pop_level hints l l' _ (x.pos ^^^ 1)]
        cases hints with
        | nil => simp [Siblings.get]
        | cons h r =>
          simp only [Siblings.get, List.isEmpty_nil, if_true, Res.ok_bind]
          rw [ih (y :: t).length (by rw [← hn]; simp) (y :: t) rfl]

theorem pair_swap (x y : Item) (e : y.pos = x.pos ^^^ 1) :
    parentString y.pos y.hash x.hash = parentString x.pos x.hash y.hash ∧ y.pos / 2 = x.pos / 2 := by
  rw [xor_one] at e
  rw [parentString, parentString]
  by_cases h : x.pos % 2 = 0
  · rw [if_pos h] at e
    rw [if_pos h, if_neg (by omega)]
    exact ⟨rfl, by omega⟩
  · rw [if_neg h] at e
    rw [if_neg h, if_pos (by omega)]
    exact ⟨rfl, by omega⟩

theorem up_paths {H : Bytes → Bytes} (hH : ∀ x, (H x).length = 32) (l : Nat) : ∀ (items : List Item)
    (hints : List Bytes) (items' : List Item) (s' : Siblings),
    up H l true items ⟨[], hints⟩ = .ok (items', s') → (∀ x ∈ items, x.hash.length = 32) →
    (∀ h ∈ hints, h.length = 32) →
    s'.levels = [] ∧ (∀ h ∈ s'.hints, h.length = 32) ∧ (∀ x ∈ items', x.hash.length = 32) ∧
    ∀ x ∈ items, ∃ sib : Bytes, sib.length = 32 ∧ parentString x.pos x.hash sib ∈ upLog items hints ∧
      (⟨x.pos / 2, H (parentString x.pos x.hash sib)⟩ : Item) ∈ items' := by
  intro items
  induction hn : items.length using Nat.strongRecOn generalizing items with
  | ind n ih =>
    intro hints items' s' hup hil hhl
    match items, hn with
    | [], _ =>
      rw [up] at hup; injection hup with hup; injection hup with h1 h2; subst h1; subst h2
      exact ⟨rfl, hhl, by simp, by simp⟩
    | [x], _ =>
      cases hints with
      | nil => simp [up, Siblings.get] at hup
      | cons h r =>
        simp only [up, Siblings.get, List.isEmpty_nil, if_true, Res.ok_bind, Res.pure_eq] at hup
        injection hup with hup; injection hup with h1 h2; subst h1; subst h2
        refine ⟨rfl, fun a ha => hhl a (List.mem_cons_of_mem _ ha), ?_, ?_⟩
        · intro z hz; simp at hz; subst hz; rw [parentHash_true]; exact hH _
        · intro z hz; simp at hz; subst hz
          exact ⟨h, hhl h (by simp), by simp [upLog], by rw [parentHash_true]; simp⟩
    | x :: y :: t, hn =>
      rw [up] at hup
      by_cases e : y.pos = x.pos ^^^ 1
      · rw [if_pos e] at hup
        obtain ⟨⟨more, s1⟩, h1, h2⟩ := Res.bind_eq_ok.1 hup
        simp only [Res.pure_eq] at h2
        injection h2 with h2; injection h2 with h2 h3; subst h2; subst h3
        obtain ⟨g1, g2, g3, g4⟩ := ih t.length (by rw [← hn]; simp; omega) t rfl hints more s1 h1
          (fun z hz => hil z (by simp [hz])) hhl
        obtain ⟨sw1, sw2⟩ := pair_swap x y e
        refine ⟨g1, g2, ?_, ?_⟩
        · intro z hz
          rcases List.mem_cons.1 hz with rfl | hz
          · rw [parentHash_true]; exact hH _
          · exact g3 z hz
        · intro z hz
          rw [upLog, if_pos e]
          rcases List.mem_cons.1 hz with rfl | hz
          · exact ⟨y.hash, hil y (by simp), by simp, by rw [parentHash_true]; simp⟩
          · rcases List.mem_cons.1 hz with rfl | hz
            · exact ⟨x.hash, hil x (by simp), by rw [sw1]; simp, by rw [parentHash_true, sw1, sw2]; simp⟩
            · obtain ⟨sib, q1, q2, q3⟩ := g4 z hz
              exact ⟨sib, q1, List.mem_cons_of_mem _ q2, List.mem_cons_of_mem _ q3⟩
      · rw [if_neg e] at hup
        cases hints with
        | nil => simp [Siblings.get] at hup
        | cons h r =>
          simp only [Siblings.get, List.isEmpty_nil, if_true, Res.ok_bind] at hup
          obtain ⟨⟨more, s1⟩, h1, h2⟩ := Res.bind_eq_ok.1 hup
          simp only [Res.pure_eq] at h2
          injection h2 with h2; injection h2 with h2 h3; subst h2; subst h3
          obtain ⟨g1, g2, g3, g4⟩ := ih (y :: t).length (by rw [← hn]; simp) (y :: t) rfl r more s1 h1
            (fun z hz => hil z (List.mem_cons_of_mem _ hz)) (fun a ha => hhl a (List.mem_cons_of_mem _ ha))
          refine ⟨g1, g2, ?_, ?_⟩
          · intro z hz
            rcases List.mem_cons.1 hz with rfl | hz
            · rw [parentHash_true]; exact hH _
            · exact g3 z hz
          · intro z hz
            rw [upLog, if_neg e]
            simp only [List.headD_cons, List.tail_cons]
            rcases List.mem_cons.1 hz with rfl | hz
            · exact ⟨h, hhl h (by simp), by simp, by rw [parentHash_true]; simp⟩
            · obtain ⟨sib, q1, q2, q3⟩ := g4 z hz
              exact ⟨sib, q1, List.mem_cons_of_mem _ q2, List.mem_cons_of_mem _ q3⟩

theorem verifyLoop_paths {H : Bytes → Bytes} (hH : ∀ x, (H x).length = 32) : ∀ (k l : Nat) (pl : List Item)
    (hints : List Bytes) (l' : Nat) (pl' : List Item), verifyLoop H k l pl hints = .ok (l', pl') →
    (∀ x ∈ pl, x.hash.length = 32) → (∀ h ∈ hints, h.length = 32) →
    ∃ d, l' = l + d ∧ pl'.length ≤ 1 ∧ ∀ x ∈ pl, ∃ ss : List Bytes, ss.length = d ∧
      (∀ s ∈ ss, s.length = 32) ∧ (∀ y ∈ climbStrings H x.pos x.hash ss, y ∈ loopLog H k pl hints) ∧
      (⟨(climb H x.pos x.hash ss).1, (climb H x.pos x.hash ss).2⟩ : Item) ∈ pl' := by
  intro k
  induction k with
  | zero =>
    intro l pl hints l' pl' h hil hhl
    rw [verifyLoop] at h
    split at h
    · split at h
      · cases h
      · cases h
      · cases h
    · rename_i hc
      injection h with h; injection h with h1 h2; subst h1; subst h2
      simp at hc
      exact ⟨0, rfl, hc.2, fun x hx => ⟨[], rfl, by simp, by simp [climbStrings], by simpa [climb] using hx⟩⟩
  | succ k ih =>
    intro l pl hints l' pl' h hil hhl
    rw [verifyLoop] at h
    split at h
    · rename_i hc
      split at h
      · rename_i pl1 s1 hup
        obtain ⟨g1, g2, g3, g4⟩ := up_paths hH l pl hints pl1 s1 hup hil hhl
        obtain ⟨d, e1, e2, e3⟩ := ih (l + 1) pl1 s1.hints l' pl' h g3 g2
        refine ⟨d + 1, by omega, e2, ?_⟩
        intro x hx
        obtain ⟨sib, q1, q2, q3⟩ := g4 x hx
        obtain ⟨ss, r1, r2, r3, r4⟩ := e3 _ q3
        refine ⟨sib :: ss, by simp [r1], ?_, ?_, r4⟩
        · intro s hs
          rcases List.mem_cons.1 hs with rfl | hs
          · exact q1
          · exact r2 s hs
        · intro y hy
          rw [loopLog, hc]
          simp only [if_true]
          rw [up_level H 0 l, hup]
          rw [climbStrings] at hy
          rcases List.mem_cons.1 hy with rfl | hy
          · exact List.mem_append_left _ q2
          · exact List.mem_append_right _ (r3 y hy)
      · cases h
      · cases h
    · rename_i hc
      injection h with h; injection h with h1 h2; subst h1; subst h2
      simp at hc
      exact ⟨0, rfl, hc.2, fun x hx => ⟨[], rfl, by simp, by simp [climbStrings], by simpa [climb] using hx⟩⟩

/-- An accepted verification contains, for every claimed element, an authentication path of a common
length up to the root. -/
theorem verify_paths {H : Bytes → Bytes} (hH : ∀ x, (H x).length = 32) {root : Bytes}
    {elems : List (Nat × Bytes)} {proof : List Bytes} (hv : verify H root elems proof = .ok ())
    (hne : elems ≠ []) (hel : ∀ e ∈ elems, e.2.length = 32) (hpl : ∀ h ∈ proof, h.length = 32) :
    ∃ d top, verifyLoop H 64 0
        ((elems.map (fun e => Item.mk e.1 e.2)).mergeSort (fun a b => decide (a.pos ≤ b.pos))) proof =
        .ok (d, top) ∧
      ∀ e ∈ elems, ∃ ss : List Bytes, ss.length = d ∧ (∀ s ∈ ss, s.length = 32) ∧
      (∀ y ∈ climbStrings H e.1 e.2 ss, y ∈ verifyLog H elems proof) ∧
      climb H e.1 e.2 ss = (0, root) := by
  have hie : elems.isEmpty = false := by
    cases elems with
    | nil => exact absurd rfl hne
    | cons _ _ => rfl
  rw [verify, hie] at hv
  simp only [Bool.false_eq_true, if_false] at hv
  obtain ⟨⟨d, pl'⟩, h1, h2⟩ := Res.bind_eq_ok.1 hv
  have hperm := List.mergeSort_perm (elems.map (fun e => Item.mk e.1 e.2))
    (fun a b => decide (a.pos ≤ b.pos))
  obtain ⟨d', e1, e2, e3⟩ := verifyLoop_paths hH 64 0 _ proof d pl' h1 (by
    intro x hx
    obtain ⟨e, he, rfl⟩ := List.mem_map.1 (hperm.mem_iff.1 hx)
    exact hel e he) hpl
  have hd : d = d' := by omega
  subst hd
  refine ⟨d, pl', h1, ?_⟩
  intro e he
  obtain ⟨ss, r1, r2, r3, r4⟩ := e3 ⟨e.1, e.2⟩ (hperm.mem_iff.2 (List.mem_map.2 ⟨e, he, rfl⟩))
  refine ⟨ss, r1, r2, r3, ?_⟩
  simp only at r4
  cases pl' with
  | nil => cases r4
  | cons a t =>
    cases t with
    | cons _ _ => simp at e2
    | nil =>
      simp only [List.mem_singleton] at r4
      rw [← r4] at h2
      simp only at h2
      split at h2
      · cases h2
      · rename_i hc
        simp only [ne_eq, not_or, not_not] at hc
        exact Prod.ext hc.1 hc.2

theorem pairRep_inj {a b c d : Bytes} (ha : a.length = c.length) (h : pairRep a b = pairRep c d) :
    a = c ∧ b = d := by
  simp only [pairRep, hashRep] at h
  exact List.append_inj (List.append_cancel_left h) ha

/-- The strings hashed while building one layer from the one below. -/
def pairStrings : List Bytes → List Bytes
  | [] => []
  | [a] => [pairRep a zeroHash]
  | a :: b :: rest => pairRep a b :: pairStrings rest

/-- All strings hashed to build the tree of an array. -/
def treeStrings (H : Bytes → Bytes) (array : List ToBeHashed) : List Bytes :=
  array.map hashRep ++ (fromArray H array).dropLast.flatMap pairStrings

theorem mem_pairStrings : ∀ (layer : List Bytes) (q : Nat), 2 * q < layer.length →
    pairRep (layerVal layer (2 * q)) (layerVal layer (2 * q + 1)) ∈ pairStrings layer
  | [], q, h => by simp at h
  | [a], q, h => by
    have : q = 0 := by simp at h; omega
    subst this; simp [pairStrings, layerVal]
  | a :: b :: rest, q, h => by
    cases q with
    | zero => simp [pairStrings, layerVal]
    | succ q =>
      have := mem_pairStrings rest q (by simp at h; omega)
      rw [pairStrings]
      exact List.mem_cons_of_mem _ this

theorem layerVal_len {H : Bytes → Bytes} (hH : ∀ x, (H x).length = 32) (layer : List Bytes)
    (hl : ∀ h ∈ layer, h.length = 32) (p : Nat) : (layerVal layer p).length = 32 := by
  rw [layerVal]
  cases h : layer[p]? with
  | none => simp [zeroHash]
  | some x => exact hl x (List.mem_of_getElem? h)

theorem layerUp_len {H : Bytes → Bytes} (hH : ∀ x, (H x).length = 32) :
    ∀ (layer : List Bytes), ∀ h ∈ layerUp H layer, h.length = 32
  | [], h, hh => by simp [layerUp] at hh
  | [a], h, hh => by simp [layerUp] at hh; rw [hh]; exact hH _
  | a :: b :: rest, h, hh => by
    rw [layerUp] at hh
    rcases List.mem_cons.1 hh with rfl | hh
    · exact hH _
    · exact layerUp_len hH rest h hh

theorem levels_len {H : Bytes → Bytes} (hH : ∀ x, (H x).length = 32) (layer : List Bytes)
    (hl : ∀ h ∈ layer, h.length = 32) : ∀ lay ∈ levelsFrom H layer, ∀ h ∈ lay, h.length = 32 := by
  induction hn : layer.length using Nat.strongRecOn generalizing layer with
  | ind n ih =>
    intro lay hlay
    rw [levelsFrom] at hlay
    split at hlay
    · simp at hlay; subst hlay; exact hl
    · rename_i h1
      rcases List.mem_cons.1 hlay with rfl | hlay
      · exact hl
      · exact ih (layerUp H layer).length (by rw [layerUp_length]; omega) _ (layerUp_len hH layer) rfl lay hlay

/-- Going down an authentication path that ends at an entry of level `j` of the tree. -/
theorem descend {H : Bytes → Bytes} (hH : ∀ x, (H x).length = 32) (levels : List (List Bytes))
    (hsh : Shape H levels) (hlen : ∀ lay ∈ levels, ∀ h ∈ lay, h.length = 32) (p : Nat) (h : Bytes)
    (hh : h.length = 32) : ∀ (n : Nat) (ss : List Bytes) (j : Nat) (layer : List Bytes),
    ss.length = n → (∀ s ∈ ss, s.length = 32) → levels[j]? = some layer →
    (climb H p h ss).2 = layerVal layer (climb H p h ss).1 →
    (∃ x ∈ levels.dropLast.flatMap pairStrings, ∃ y ∈ climbStrings H p h ss, x ≠ y ∧ H x = H y) ∨
    (∃ y ∈ climbStrings H p h ss, H y = zeroHash) ∨
    (n ≤ j ∧ ∃ low, levels[j - n]? = some low ∧ h = layerVal low p) ∨
    (j < n ∧ ∃ low y q, levels[0]? = some low ∧ y ∈ climbStrings H p h ss ∧
      (∃ l r, y = pairRep l r) ∧ H y = layerVal low q) := by
  intro n
  induction n with
  | zero =>
    intro ss j layer hn _ hj hv
    have : ss = [] := List.length_eq_zero_iff.1 hn
    subst this
    simp only [climb] at hv
    exact Or.inr (Or.inr (Or.inl ⟨Nat.zero_le _, layer, by simpa using hj, hv⟩))
  | succ n ih =>
    intro ss j layer hn hs hj hv
    obtain ⟨ys, y, rfl⟩ := List.eq_nil_or_concat ss |>.resolve_left (by intro e; rw [e] at hn; simp at hn)
    rw [List.concat_eq_append] at *
    have hn' : ys.length = n := by simpa using hn
    rw [climb_concat] at hv
    rw [climbStrings_concat]
    simp only at hv
    have hclen := climb_len hH ys p h hh
    generalize hc : climb H p h ys = c at hv hclen
    obtain ⟨p', h'⟩ := c
    simp only at hv hclen
    have hylen : y.length = 32 := hs y (by simp)
    have hin : parentString p' h' y ∈ climbStrings H p h ys ++ [parentString p' h' y] := by simp
    cases j with
    | zero =>
      refine Or.inr (Or.inr (Or.inr ⟨by omega, layer, parentString p' h' y, p' / 2, hj, hin, ?_, hv⟩))
      rw [parentString]; split
      · exact ⟨_, _, rfl⟩
      · exact ⟨_, _, rfl⟩
    | succ j =>
      -- the layer below
      have hjlt : j + 1 < levels.length := (List.getElem?_eq_some_iff.1 hj).1
      have hprev : levels[j]? = some levels[j] := List.getElem?_eq_getElem (by omega)
      generalize levels[j] = prev at hprev
      have hup := hsh.chain j prev hprev hjlt
      rw [hj] at hup; injection hup with hup; subst hup
      have hplen := hlen prev (List.mem_of_getElem? hprev)
      by_cases hq : 2 * (p' / 2) < prev.length
      · rw [layerVal_up H prev _ hq] at hv
        have hmem : pairRep (layerVal prev (2 * (p' / 2))) (layerVal prev (2 * (p' / 2) + 1)) ∈
            levels.dropLast.flatMap pairStrings := by
          refine List.mem_flatMap.2 ⟨prev, ?_, mem_pairStrings prev _ hq⟩
          rw [List.mem_iff_getElem?]
          exact ⟨j, by rw [List.getElem?_dropLast, if_pos (by omega)]; exact hprev⟩
        by_cases heq : pairRep (layerVal prev (2 * (p' / 2))) (layerVal prev (2 * (p' / 2) + 1)) =
            parentString p' h' y
        · have hval : h' = layerVal prev p' := by
            rw [parentString] at heq
            by_cases e : p' % 2 = 0
            · rw [if_pos e] at heq
              have := (pairRep_inj (by rw [layerVal_len hH prev hplen, hclen]) heq).1
              rw [← this]; congr 1; omega
            · rw [if_neg e] at heq
              have := (pairRep_inj (by rw [layerVal_len hH prev hplen, hylen]) heq).2
              rw [← this]; congr 1; omega
          rcases ih ys j prev hn' (fun s hs' => hs s (by simp [hs'])) hprev (by rw [hc]; exact hval) with
            ⟨x, hx, z, hz, q⟩ | ⟨z, hz, q⟩ | ⟨h1, low, h2, h3⟩ | ⟨h1, low, z, q, h2, h3, h4⟩
          · exact Or.inl ⟨x, hx, z, List.mem_append_left _ hz, q⟩
          · exact Or.inr (Or.inl ⟨z, List.mem_append_left _ hz, q⟩)
          · refine Or.inr (Or.inr (Or.inl ⟨by omega, low, ?_, h3⟩))
            rw [← h2]; congr 1; omega
          · exact Or.inr (Or.inr (Or.inr ⟨by omega, low, z, q, h2, List.mem_append_left _ h3, h4⟩))
        · exact Or.inl ⟨_, hmem, _, hin, heq, hv.symm⟩
      · refine Or.inr (Or.inl ⟨_, hin, ?_⟩)
        rw [hv, layerVal, List.getElem?_eq_none]
        · rfl
        · rw [layerUp_length]; omega

/-- Two paths of the same length from the same position to the same value. -/
theorem climb_unique {H : Bytes → Bytes} (hH : ∀ x, (H x).length = 32) (p : Nat) (h1 h2 : Bytes)
    (hl1 : h1.length = 32) (hl2 : h2.length = 32) : ∀ (n : Nat) (s1 s2 : List Bytes),
    s1.length = n → s2.length = n → (∀ s ∈ s1, s.length = 32) → (∀ s ∈ s2, s.length = 32) →
    (climb H p h1 s1).2 = (climb H p h2 s2).2 →
    ((climb H p h1 s1).1 = (climb H p h2 s2).1) ∧
    (h1 = h2 ∨ ∃ x ∈ climbStrings H p h1 s1, ∃ y ∈ climbStrings H p h2 s2, x ≠ y ∧ H x = H y) := by
  intro n
  have hpos : ∀ (s1 s2 : List Bytes) (p : Nat) (h1 h2 : Bytes), s1.length = s2.length →
      (climb H p h1 s1).1 = (climb H p h2 s2).1 := by
    intro s1
    induction s1 with
    | nil =>
      intro s2 p h1 h2 h
      have : s2 = [] := List.length_eq_zero_iff.1 h.symm
      subst this; rfl
    | cons a t ih =>
      intro s2 p h1 h2 h
      cases s2 with
      | nil => simp at h
      | cons b t2 => rw [climb, climb]; exact ih t2 _ _ _ (by simpa using h)
  induction n with
  | zero =>
    intro s1 s2 e1 e2 _ _ h
    rw [List.length_eq_zero_iff] at e1 e2
    subst e1; subst e2
    exact ⟨rfl, Or.inl h⟩
  | succ n ih =>
    intro s1 s2 e1 e2 hs1 hs2 h
    refine ⟨hpos s1 s2 p h1 h2 (by omega), ?_⟩
    obtain ⟨a, x, rfl⟩ := List.eq_nil_or_concat s1 |>.resolve_left (by intro e; rw [e] at e1; simp at e1)
    obtain ⟨b, y, rfl⟩ := List.eq_nil_or_concat s2 |>.resolve_left (by intro e; rw [e] at e2; simp at e2)
    rw [List.concat_eq_append] at *
    rw [List.concat_eq_append] at *
    have ea : a.length = n := by simpa using e1
    have eb : b.length = n := by simpa using e2
    have hp := hpos a b p h1 h2 (by omega)
    rw [climb_concat, climb_concat] at h
    rw [climbStrings_concat, climbStrings_concat]
    simp only at h
    by_cases heq : parentString (climb H p h1 a).1 (climb H p h1 a).2 x =
        parentString (climb H p h2 b).1 (climb H p h2 b).2 y
    · have hv : (climb H p h1 a).2 = (climb H p h2 b).2 := by
        have l1 := climb_len hH a p h1 hl1
        have l2 := climb_len hH b p h2 hl2
        rw [parentString, parentString, hp] at heq
        by_cases e : (climb H p h2 b).1 % 2 = 0
        · rw [if_pos e, if_pos e] at heq
          exact (pairRep_inj (by rw [l1, l2]) heq).1
        · rw [if_neg e, if_neg e] at heq
          exact (pairRep_inj (by rw [hs1 x (by simp), hs2 y (by simp)]) heq).2
      rcases (ih a b ea eb (fun s hs => hs1 s (by simp [hs])) (fun s hs => hs2 s (by simp [hs])) hv).2 with
        h | ⟨x, hx, y, hy, q⟩
      · exact Or.inl h
      · exact Or.inr ⟨x, List.mem_append_left _ hx, y, List.mem_append_left _ hy, q⟩
    · exact Or.inr ⟨_, by simp, _, by simp, heq, h⟩

end Verif.MerkleArray
