import Verif.Lemmas.TrieOps
/-!
# `calculate_hash` on a represented subtrie
-/

namespace Verif.Trie
open Verif

variable {H : Bytes → Bytes}

theorem put_eq_self {g : Nat → Option Node} {i : Nat} {n : Node} (h : g i = some n) :
    put g i (some n) = g := by
  funext j
  by_cases e : j = i
  · subst e; rw [put_same, h]
  · rw [put_ne _ _ e]

/-- The node at `i` shows view `v`. -/
def Shows (c : Cache) (i : Nat) (v : View) : Prop :=
  ∃ n, c.cache i = some n ∧ n.isLeaf = v.1 ∧ n.hash = v.2

/-- What hashing a subtrie and storing its root achieves. -/
structure HashOK (H : Bytes → Bytes) (c c' : Cache) (path : Bytes) (id : Nat)
    (S : Bytes → Prop) (F : Nat → Prop) (v : View) : Prop where
  wf : c'.WF
  next : c'.next = c.next
  frame : ∀ i, ¬ F i → c'.cache i = c.cache i
  rep : Rep H c'.cache path id S F v
  shows : Shows c' id v

theorem calcChildren_spec (ch : Children) (path : Bytes) (SB : UInt8 → Bytes → Prop)
    (FB : UInt8 → Nat → Prop) (VB : UInt8 → View)
    (hdisj : ∀ b b' c c' i, ch b = some c → ch b' = some c' → FB b i → FB b' i → b = b')
    (rec : Node → Cache → Res CacheError (Node × Cache))
    (hrec : ∀ b cb c n, ch b = some cb → c.WF → c.cache cb = some n →
      Rep H c.cache (path ++ [b]) cb (SB b) (FB b) (VB b) →
      ∃ n' c', rec n c = .ok (n', c') ∧
        HashOK H c (c'.setNode cb n') (path ++ [b]) cb (SB b) (FB b) (VB b)) :
    ∀ (l : List (UInt8 × Nat)) (c : Cache), c.WF → (∀ b cb, (b, cb) ∈ l → ch b = some cb) →
      (∀ b cb, ch b = some cb → Rep H c.cache (path ++ [b]) cb (SB b) (FB b) (VB b)) →
      ∃ c', calcChildren rec l c = .ok c' ∧ c'.WF ∧ c'.next = c.next ∧
        (∀ i, (¬ ∃ b cb, ch b = some cb ∧ FB b i) → c'.cache i = c.cache i) ∧
        (∀ b cb, ch b = some cb → Rep H c'.cache (path ++ [b]) cb (SB b) (FB b) (VB b)) ∧
        (∀ b cb, ch b = some cb → Shows c cb (VB b) → Shows c' cb (VB b)) ∧
        (∀ b cb, (b, cb) ∈ l → Shows c' cb (VB b)) := by
  intro l
  induction l with
  | nil =>
    intro c hw _ hr
    exact ⟨c, rfl, hw, rfl, fun _ _ => rfl, hr, fun _ _ _ h => h, fun _ _ h => by cases h⟩
  | cons p l ih =>
    intro c hw hl hr
    obtain ⟨b, cb⟩ := p
    have hb : ch b = some cb := hl b cb List.mem_cons_self
    have hrb := hr b cb hb
    obtain ⟨n, hn⟩ := hrb.some_of_mem cb hrb.mem_root
    have hl' : ∀ b cb, (b, cb) ∈ l → ch b = some cb := fun x cx hx => hl x cx (List.mem_cons_of_mem _ hx)
    cases hcond : (!n.isLeaf && n.dirty) with
    | true =>
      obtain ⟨n', c1, h1, ok⟩ := hrec b cb c n hb hw hn hrb
      have hunch : ∀ x cx, x ≠ b → ch x = some cx → ∀ i, FB x i →
          (c1.setNode cb n').cache i = c.cache i := by
        intro x cx hx hcx i hi
        exact ok.frame i (fun hi' => hx (hdisj x b cx cb i hcx hb hi hi'))
      have hr' : ∀ x cx, ch x = some cx →
          Rep H (c1.setNode cb n').cache (path ++ [x]) cx (SB x) (FB x) (VB x) := by
        intro x cx hcx
        by_cases e : x = b
        · subst e; rw [hb] at hcx; injection hcx with hcx; subst hcx; exact ok.rep
        · exact (hr x cx hcx).frame _ (hunch x cx e hcx)
      obtain ⟨c', g1, g2, g3, g4, g5, g6, g7⟩ := ih _ ok.wf hl' hr'
      have hsh : ∀ x cx, ch x = some cx → Shows c cx (VB x) → Shows (c1.setNode cb n') cx (VB x) := by
        intro x cx hcx hs
        by_cases e : x = b
        · subst e; rw [hb] at hcx; injection hcx with hcx; subst hcx; exact ok.shows
        · obtain ⟨m, hm, q⟩ := hs
          exact ⟨m, by rw [hunch x cx e hcx cx (hr x cx hcx).mem_root]; exact hm, q⟩
      refine ⟨c', ?_, g2, by rw [g3, ok.next], ?_, g5, fun x cx hcx hs => g6 x cx hcx (hsh x cx hcx hs), ?_⟩
      · rw [calcChildren]
        simp only [getNode_ok hw hn, Res.ok_bind, hcond, if_true, h1]; exact g1
      · intro i hi
        rw [g4 i hi, ok.frame i (fun h => hi ⟨b, cb, hb, h⟩)]
      · intro x cx hx
        rcases List.mem_cons.1 hx with e | hx
        · injection e with e1 e2; subst e1; subst e2; exact g6 x cx hb ok.shows
        · exact g7 x cx hx
    | false =>
      obtain ⟨c', g1, g2, g3, g4, g5, g6, g7⟩ := ih c hw hl' hr
      have hsh : Shows c cb (VB b) := by
        generalize VB b = vb at hrb
        cases hrb with
        | leaf _ _ _ _ dty suffix hg hS hF =>
          exact ⟨_, hg, rfl, rfl⟩
        | node _ _ _ _ dty h chb FBb VBb hg hnil hno hrec hF hid hdisj h2 hclean hdirty =>
          rw [hn] at hg; injection hg with hg; subst hg
          have : dty = false := by simpa [Node.isLeaf] using hcond
          exact ⟨_, hn, rfl, hclean this⟩
      refine ⟨c', ?_, g2, g3, g4, g5, g6, ?_⟩
      · rw [calcChildren]
        simp only [getNode_ok hw hn, Res.ok_bind, hcond, Bool.false_eq_true, if_false]; exact g1
      · intro x cx hx
        rcases List.mem_cons.1 hx with e | hx
        · injection e with e1 e2; subst e1; subst e2; exact g6 x cx hb hsh
        · exact g7 x cx hx

theorem accumulate_spec {c : Cache} (hw : c.WF) (VB : UInt8 → View) : ∀ (l : List (UInt8 × Nat)),
    (∀ b cb, (b, cb) ∈ l → Shows c cb (VB b)) →
    accumulate l c = .ok ((l.map (fun p => (p.1, VB p.1))).flatMap (fun p =>
      (if p.2.1 then 0 else 1) :: UInt8.ofNat p.2.2.length :: p.1 :: p.2.2), c) := by
  intro l
  induction l with
  | nil => intro _; rfl
  | cons p l ih =>
    obtain ⟨b, cb⟩ := p
    intro hl
    obtain ⟨n, hn, e1, e2⟩ := hl b cb List.mem_cons_self
    have := ih (fun x cx hx => hl x cx (List.mem_cons_of_mem _ hx))
    rw [accumulate]
    simp only [getNode_ok hw hn, Res.ok_bind, this, e1, e2, List.map_cons, List.flatMap_cons]
    simp only [Res.pure_eq, List.cons_append]

theorem childViews_eq (ch : Children) (VB : UInt8 → View) :
    childViews ch VB = (childList ch).map (fun p => (p.1, VB p.1)) := by
  rw [childViews, childList, List.map_filterMap]
  congr 1; funext b
  cases ch b <;> rfl

/-- The identifiers `F` are few enough for a recursion on a budget of `fuel`. -/
def Room (F : Nat → Prop) (fuel : Nat) : Prop := ∃ l : List Nat, (∀ i, F i → i ∈ l) ∧ l.length ≤ fuel

theorem Room.pos {F : Nat → Prop} {fuel i : Nat} (h : Room F fuel) (hi : F i) : 0 < fuel := by
  obtain ⟨l, h1, h2⟩ := h
  have := List.length_pos_of_mem (h1 i hi)
  omega

theorem Room.child {F FB : Nat → Prop} {fuel id : Nat} (h : Room F (fuel + 1)) (hid : F id) (hsub : ∀ i, FB i → F i)
    (hne : ¬ FB id) : Room FB fuel := by
  obtain ⟨l, h1, h2⟩ := h
  refine ⟨l.erase id, fun i hi => ?_, ?_⟩
  · have : i ≠ id := by rintro rfl; exact hne hi
    exact (List.mem_erase_of_ne this).2 (h1 i (hsub i hi))
  · rw [List.length_erase_of_mem (h1 id hid)]; omega

theorem Room.of_lt {F : Nat → Prop} {n : Nat} (h : ∀ i, F i → i < n) : Room F n :=
  ⟨List.range n, fun i hi => List.mem_range.2 (h i hi), by simp⟩

theorem calculateHash_spec : ∀ (fuel : Nat) (self : Node) (c : Cache), c.WF → ∀ {path id S F v},
    c.cache id = some self → Rep H c.cache path id S F v → Room F fuel →
    ∃ n' c', calculateHash H fuel self c = .ok (n', c') ∧
      HashOK H c (c'.setNode id n') path id S F v ∧ n'.isLeaf = v.1 ∧ n'.hash = v.2 := by
  intro fuel
  induction fuel with
  | zero =>
    intro self c hw path id S F v hself hrep hlen
    exact absurd (hlen.pos hrep.mem_root) (by omega)
  | succ fuel ih =>
    intro self c hw path id S F v hself hrep hlen
    have hidlt : id < c.next := hrep.lt_next hw id hrep.mem_root
    have same : ∀ {v}, Rep H c.cache path id S F v → self.isLeaf = v.1 → self.hash = v.2 →
        HashOK H c (c.setNode id self) path id S F v := by
      intro v hr e1 e2
      have hc : (c.setNode id self).cache = c.cache := put_eq_self hself
      exact ⟨setNode_wf hw _ _ hidlt, rfl, fun i _ => by rw [hc], by rw [hc]; exact hr,
        self, by rw [hc]; exact hself, e1, e2⟩
    cases hrep with
    | leaf _ _ _ _ dty suffix hg hS hF =>
      rw [hself] at hg; injection hg with hg; subst hg
      exact ⟨_, _, rfl, same (Rep.leaf _ _ _ _ dty suffix hself hS hF) rfl rfl, rfl, rfl⟩
    | node _ _ _ _ dty h ch FB VB hg hnil hno hrec hF hid hdisj h2 hclean hdirty =>
      rw [hself] at hg; injection hg with hg; subst hg
      cases dty with
      | false =>
        refine ⟨_, _, rfl, same (Rep.node _ _ _ _ false h ch FB VB hself hnil hno hrec hF hid hdisj
          h2 hclean hdirty) rfl (hclean rfl), rfl, hclean rfl⟩
      | true =>
        obtain ⟨c1, g1, g2, g3, g4, g5, _, g7⟩ := calcChildren_spec (H := H) ch path
          (fun b s => S (b :: s)) FB VB hdisj
          (calculateHash H fuel) (by
            intro b cb c n hb hw hn hr
            obtain ⟨n', c', k1, k2, _⟩ := ih n c hw hn hr
              (hlen.child ((hF id).2 (Or.inl rfl)) (fun i hi => (hF i).2 (Or.inr ⟨b, cb, hb, hi⟩)) (hid b cb hb))
            exact ⟨n', c', k1, k2⟩)
          (childList ch) c hw (fun b cb hb => (mem_childList ch b cb).1 hb) hrec
        have hacc := accumulate_spec g2 VB (childList ch) g7
        have hpath : h = path := hdirty rfl
        subst hpath
        refine ⟨⟨false, H (nodeBuffer h (childViews ch VB)), some ch⟩, c1, ?_, ?_, rfl, rfl⟩
        · rw [calculateHash]
          simp only [Bool.not_true, Bool.false_eq_true, if_false, g1, Res.ok_bind, hacc, Res.pure_eq,
            nodeBuffer, childViews_eq]
        · have gid : (c1.setNode id ⟨false, H (nodeBuffer h (childViews ch VB)), some ch⟩).cache id =
              some ⟨false, H (nodeBuffer h (childViews ch VB)), some ch⟩ := by
            simp only [Cache.setNode]; rw [put_same]
          refine ⟨setNode_wf g2 _ _ (by omega), g3, ?_, ?_, ⟨_, gid, rfl, rfl⟩⟩
          · intro i hi
            simp only [Cache.setNode]
            rw [put_ne]
            · exact g4 i (fun hx => hi ((hF i).2 (Or.inr hx)))
            · rintro rfl; exact hi ((hF i).2 (Or.inl rfl))
          · refine Rep.node _ _ _ _ false _ ch FB VB gid hnil hno ?_ hF hid hdisj h2 (fun _ => rfl)
              (by intro h; cases h)
            intro b cb hb
            refine (g5 b cb hb).frame _ (fun i hi => ?_)
            simp only [Cache.setNode]
            rw [put_ne]; rintro rfl; exact hid b cb hb hi

end Verif.Trie
