import Verif.Lemmas.Trie
/-!
# `add` and `remove` on a represented subtrie
-/

namespace Verif.Trie
open Verif

variable {H : Bytes → Bytes}

theorem upd_same (ch : Children) (b : UInt8) (v : Option Nat) : upd ch b v b = v := by simp [upd]

theorem upd_ne (ch : Children) {b x : UInt8} (v : Option Nat) (h : x ≠ b) : upd ch b v x = ch x := by
  simp [upd, h]

theorem add_spec (d : Bytes) : ∀ (self : Node) (c : Cache), c.WF → ∀ {path id S F v},
    c.cache id = some self → Rep H c.cache path id S F v → Apart S d →
    ∃ id' c', add d self path c = .ok (id', c') ∧
      StepOK H c c' path id id' F (fun s => S s ∨ s = d) := by
  -- the leaf case does not need induction
  have leafcase : ∀ (d : Bytes) (self : Node) (c : Cache), c.WF → ∀ (path : Bytes) (id : Nat)
      (S : Bytes → Prop) (F : Nat → Prop) (v : View) (dty : Bool) (suffix : Bytes),
      c.cache id = some self → c.cache id = some ⟨dty, suffix, none⟩ → (∀ s, S s ↔ s = suffix) →
      (∀ i, F i ↔ i = id) → Apart S d →
      ∃ id' c', add d self path c = .ok (id', c') ∧
        StepOK H c c' path id id' F (fun s => S s ∨ s = d) := by
    intro d self c hw path id S F v dty suffix hself hg hS hF hap
    rw [hself] at hg; injection hg with hg; subst hg
    have hidlt : id < c.next := by
      by_contra hge; rw [hw.fresh id (by omega)] at hself; cases hself
    obtain ⟨id', c', h1, h2⟩ := addLeaf_spec (H := H) hw ⟨dty, suffix, none⟩ d path id F
      (fun i hi => by rw [(hF i).1 hi]; exact hidlt) ((hF id).2 rfl) (fun i hi => (hF i).1 hi)
      (hap suffix ((hS _).2 rfl)).1 (hap suffix ((hS _).2 rfl)).2
    refine ⟨id', c', by rw [add]; exact h1, ?_⟩
    have : (fun s => s = suffix ∨ s = d) = (fun s => S s ∨ s = d) := by
      funext s; rw [propext (hS s)]
    rw [← this]; exact h2
  induction d with
  | nil =>
    intro self c hw path id S F v hself hrep hap
    cases hrep with
    | leaf _ _ _ _ dty suffix hg hS hF =>
      exact leafcase [] self c hw path id S F (true, suffix) dty suffix hself hg hS hF hap
    | node _ _ _ _ dty h ch FB VB hg hnil hno hrec hF hid hdisj h2 hclean hdirty =>
      obtain ⟨s, _, hs, _⟩ := h2
      exact absurd List.nil_prefix (hap s hs).2
  | cons b rest ih =>
    intro self c hw path id S F v hself hrep hap
    have hlt := hrep.lt_next hw
    cases hrep with
    | leaf _ _ _ _ dty suffix hg hS hF =>
      exact leafcase _ self c hw path id S F (true, suffix) dty suffix hself hg hS hF hap
    | node _ _ _ _ dty h ch FB VB hg hnil hno hrec hF hid hdisj h2 hclean hdirty =>
      rw [hself] at hg; injection hg with hg; subst hg
      have hidlt : id < c.next := hlt id ((hF id).2 (Or.inl rfl))
      have hFBlt : ∀ x cx i, ch x = some cx → FB x i → i < c.next :=
        fun x cx i hx hi => hlt i ((hF i).2 (Or.inr ⟨x, cx, hx, hi⟩))
      cases hb : ch b with
      | none =>
        let c1 := c.allocSet ⟨false, rest, none⟩
        let c2 := c1.allocSet ⟨true, path, some (upd ch b (some c.next))⟩
        have hrun : add (b :: rest) ⟨dty, h, some ch⟩ path c = .ok (c.next + 1, c2) := by
          rw [add]; simp only [hb]; rfl
        have w1 : c1.WF := allocSet_wf hw _
        have w2 : c2.WF := allocSet_wf w1 _
        have g0 : c2.cache c.next = some ⟨false, rest, none⟩ := by
          simp only [c2, c1, allocSet_cache, allocSet_next]
          rw [put_ne _ _ (by omega), put_same]
        have g1 : c2.cache (c.next + 1) = some ⟨true, path, some (upd ch b (some c.next))⟩ := by
          simp only [c2, c1, allocSet_cache, allocSet_next]; rw [put_same]
        have gold : ∀ i, i < c.next → c2.cache i = c.cache i := by
          intro i hi
          simp only [c2, c1, allocSet_cache, allocSet_next]
          rw [put_ne _ _ (by omega), put_ne _ _ (by omega)]
        let FB' : UInt8 → Nat → Prop := fun x i => if x = b then i = c.next else FB x i
        let VB' : UInt8 → View := fun x => if x = b then (true, rest) else VB x
        let F' : Nat → Prop := fun i => i = c.next + 1 ∨ ∃ x cx, (upd ch b (some c.next)) x = some cx ∧ FB' x i
        have hold : ∀ x cx, x ≠ b → (upd ch b (some c.next)) x = some cx → ch x = some cx := by
          intro x cx hx h; rwa [upd_ne _ _ hx] at h
        have hFB' : ∀ x cx i, (upd ch b (some c.next)) x = some cx → FB' x i → i < c.next + 1 := by
          intro x cx i hx hi
          by_cases e : x = b
          · simp only [FB', if_pos e] at hi; omega
          · simp only [FB', if_neg e] at hi
            have := hFBlt x cx i (hold x cx e hx) hi; omega
        refine ⟨_, _, hrun, ⟨w2, by show c.next ≤ c.next + 2; omega,
          ⟨F', (false, H (nodeBuffer path (childViews (upd ch b (some c.next)) VB'))), ?_, ?_, ?_, ?_⟩, ?_⟩⟩
        · refine Rep.node _ _ _ _ true path (upd ch b (some c.next)) FB' VB' g1 ?_ ?_ ?_ (fun i => Iff.rfl) ?_ ?_ ?_ ?_ ?_
          · rintro (hs | hs)
            · exact hnil hs
            · cases hs
          · rintro x hx s (hs | hs)
            · by_cases e : x = b
              · subst e; exact hno x hb s hs
              · rw [upd_ne _ _ e] at hx; exact hno x hx s hs
            · injection hs with hs _; subst hs; rw [upd_same] at hx; cases hx
          · intro x cx hx
            by_cases e : x = b
            · subst e
              rw [upd_same] at hx; injection hx with hx; subst hx
              simp only [FB', VB', if_true]
              refine Rep.leaf _ _ _ _ false rest g0 ?_ (fun i => Iff.rfl)
              intro s
              simp only [List.cons.injEq, true_and]
              exact ⟨fun hs => hs.resolve_left (hno x hb s), Or.inr⟩
            · simp only [FB', VB', if_neg e]
              have hx' := hold x cx e hx
              have := (hrec x cx hx').frame c2.cache (fun i hi => gold i (hFBlt x cx i hx' hi))
              refine this.congrS (fun s => ?_)
              simp only [List.cons.injEq, e, false_and, or_false]
          · intro x cx hx hi
            have := hFB' x cx _ hx hi; omega
          · intro x x' cx cx' i hx hx' hi hi'
            by_cases e : x = b <;> by_cases e' : x' = b
            · rw [e, e']
            · simp only [FB', if_pos e, if_neg e'] at hi hi'
              have := hFBlt x' cx' i (hold x' cx' e' hx') hi'; omega
            · simp only [FB', if_neg e, if_pos e'] at hi hi'
              have := hFBlt x cx i (hold x cx e hx) hi; omega
            · simp only [FB', if_neg e, if_neg e'] at hi hi'
              exact hdisj x x' cx cx' i (hold x cx e hx) (hold x' cx' e' hx') hi hi'
          · obtain ⟨s, t, hs, ht, hne⟩ := h2
            exact ⟨s, t, Or.inl hs, Or.inl ht, hne⟩
          · intro h; cases h
          · intro _; rfl
        · rintro (e | ⟨x, cx, hx, hi⟩)
          · omega
          · by_cases e : x = b
            · simp only [FB', if_pos e] at hi; omega
            · simp only [FB', if_neg e] at hi; exact hid x cx (hold x cx e hx) hi
        · rintro i (rfl | ⟨x, cx, hx, hi⟩)
          · exact Or.inr (by omega)
          · by_cases e : x = b
            · simp only [FB', if_pos e] at hi; exact Or.inr (by omega)
            · simp only [FB', if_neg e] at hi
              exact Or.inl ((hF i).2 (Or.inr ⟨x, cx, hold x cx e hx, hi⟩))
        · intro i hne hi hsome
          rcases hi with hi | hi
          · rcases (hF i).1 hi with rfl | ⟨x, cx, hx, hi⟩
            · exact absurd rfl hne
            · have e : x ≠ b := by rintro rfl; rw [hb] at hx; cases hx
              exact Or.inr ⟨x, cx, by rw [upd_ne _ _ e]; exact hx, by simp only [FB', if_neg e]; exact hi⟩
          · have hlt2 : i < c.next + 2 := by
              by_contra hge; exact hsome (w2.fresh i (by show c.next + 2 ≤ i; omega))
            by_cases e : i = c.next + 1
            · exact Or.inl e
            · exact Or.inr ⟨b, c.next, upd_same _ _ _, by simp only [FB', if_true]; omega⟩
        · intro i _ hi; exact gold i hi
      | some cur =>
        have hr := hrec b cur hb
        obtain ⟨child, hchild⟩ := hr.some_of_mem cur hr.mem_root
        obtain ⟨u, c1, h1, ⟨w1, m1, ⟨Fb', v', hrep', hnc, hsub, hsup⟩, hframe⟩⟩ :=
          ih child c hw hchild hr (fun s hs => ⟨fun p => (hap _ hs).1 (List.cons_prefix_cons.2 ⟨rfl, p⟩),
            fun p => (hap _ hs).2 (List.cons_prefix_cons.2 ⟨rfl, p⟩)⟩)
        have hcurlt : cur < c.next := hFBlt b cur cur hb hr.mem_root
        have hcurid : cur ≠ id := by rintro rfl; exact hid b cur hb hr.mem_root
        let c2 := c1.setNode cur ⟨true, path, some (upd ch b (some u))⟩
        have w2 : c2.WF := setNode_wf w1 _ _ (by omega)
        have hrun : add (b :: rest) ⟨dty, h, some ch⟩ path c = .ok (cur, c2) := by
          rw [add]; simp only [hb, getNode_ok hw hchild, Res.ok_bind, h1]; rfl
        have g1 : c2.cache cur = some ⟨true, path, some (upd ch b (some u))⟩ := by
          simp only [c2, Cache.setNode]; rw [put_same]
        have gne : ∀ i, i ≠ cur → c2.cache i = c1.cache i := by
          intro i hi; simp only [c2, Cache.setNode]; rw [put_ne _ _ hi]
        let FB' : UInt8 → Nat → Prop := fun x i => if x = b then Fb' i else FB x i
        let VB' : UInt8 → View := fun x => if x = b then v' else VB x
        let F' : Nat → Prop := fun i => i = cur ∨ ∃ x cx, (upd ch b (some u)) x = some cx ∧ FB' x i
        have hold : ∀ x cx, x ≠ b → (upd ch b (some u)) x = some cx → ch x = some cx := by
          intro x cx hx h; rwa [upd_ne _ _ hx] at h
        have hother : ∀ x cx i, x ≠ b → ch x = some cx → FB x i →
            ¬ FB b i ∧ i < c.next ∧ i ≠ cur := by
          intro x cx i hx hc hi
          have hnb : ¬ FB b i := fun hi' => hx (hdisj x b cx cur i hc hb hi hi')
          exact ⟨hnb, hFBlt x cx i hc hi, by rintro rfl; exact hnb hr.mem_root⟩
        refine ⟨_, _, hrun, ⟨w2, m1,
          ⟨F', (false, H (nodeBuffer path (childViews (upd ch b (some u)) VB'))), ?_, ?_, ?_, ?_⟩, ?_⟩⟩
        · refine Rep.node _ _ _ _ true path (upd ch b (some u)) FB' VB' g1 ?_ ?_ ?_ (fun i => Iff.rfl) ?_ ?_ ?_ ?_ ?_
          · rintro (hs | hs)
            · exact hnil hs
            · cases hs
          · rintro x hx s (hs | hs)
            · by_cases e : x = b
              · subst e; rw [upd_same] at hx; cases hx
              · rw [upd_ne _ _ e] at hx; exact hno x hx s hs
            · injection hs with hs _; subst hs; rw [upd_same] at hx; cases hx
          · intro x cx hx
            by_cases e : x = b
            · subst e
              rw [upd_same] at hx; injection hx with hx; subst hx
              simp only [FB', VB', if_true]
              have := hrep'.frame c2.cache (fun i hi => gne i (by rintro rfl; exact hnc hi))
              refine this.congrS (fun s => ?_)
              simp only [List.cons.injEq, true_and]
            · simp only [FB', VB', if_neg e]
              have hx' := hold x cx e hx
              have := (hrec x cx hx').frame c2.cache (fun i hi => by
                obtain ⟨a1, a2, a3⟩ := hother x cx i e hx' hi
                rw [gne i a3, hframe i a1 a2])
              refine this.congrS (fun s => ?_)
              simp only [List.cons.injEq, e, false_and, or_false]
          · intro x cx hx hi
            by_cases e : x = b
            · simp only [FB', if_pos e] at hi; exact hnc hi
            · simp only [FB', if_neg e] at hi
              exact (hother x cx _ e (hold x cx e hx) hi).2.2 rfl
          · intro x x' cx cx' i hx hx' hi hi'
            by_cases e : x = b <;> by_cases e' : x' = b
            · rw [e, e']
            · simp only [FB', if_pos e, if_neg e'] at hi hi'
              obtain ⟨a1, a2, _⟩ := hother x' cx' i e' (hold x' cx' e' hx') hi'
              rcases hsub i hi with hh | hh
              · exact absurd hh a1
              · omega
            · simp only [FB', if_neg e, if_pos e'] at hi hi'
              obtain ⟨a1, a2, _⟩ := hother x cx i e (hold x cx e hx) hi
              rcases hsub i hi' with hh | hh
              · exact absurd hh a1
              · omega
            · simp only [FB', if_neg e, if_neg e'] at hi hi'
              exact hdisj x x' cx cx' i (hold x cx e hx) (hold x' cx' e' hx') hi hi'
          · obtain ⟨s, t, hs, ht, hne⟩ := h2
            exact ⟨s, t, Or.inl hs, Or.inl ht, hne⟩
          · intro h; cases h
          · intro _; rfl
        · rintro (e | ⟨x, cx, hx, hi⟩)
          · exact hcurid e.symm
          · by_cases e : x = b
            · simp only [FB', if_pos e] at hi
              rcases hsub id hi with hh | hh
              · exact hid b cur hb hh
              · omega
            · simp only [FB', if_neg e] at hi; exact hid x cx (hold x cx e hx) hi
        · rintro i (rfl | ⟨x, cx, hx, hi⟩)
          · exact Or.inl ((hF i).2 (Or.inr ⟨b, i, hb, hr.mem_root⟩))
          · by_cases e : x = b
            · simp only [FB', if_pos e] at hi
              rcases hsub i hi with hh | hh
              · exact Or.inl ((hF i).2 (Or.inr ⟨b, cur, hb, hh⟩))
              · exact Or.inr hh
            · simp only [FB', if_neg e] at hi
              exact Or.inl ((hF i).2 (Or.inr ⟨x, cx, hold x cx e hx, hi⟩))
        · intro i hne hi hsome
          by_cases hc : i = cur
          · exact Or.inl hc
          · rw [gne i hc] at hsome
            have inb : FB b i ∨ c.next ≤ i → F' i := fun hh =>
              Or.inr ⟨b, u, upd_same _ _ _, by simp only [FB', if_true]; exact hsup i hc hh hsome⟩
            rcases hi with hi | hi
            · rcases (hF i).1 hi with rfl | ⟨x, cx, hx, hi⟩
              · exact absurd rfl hne
              · by_cases e : x = b
                · subst e; exact inb (Or.inl hi)
                · exact Or.inr ⟨x, cx, by rw [upd_ne _ _ e]; exact hx,
                    by simp only [FB', if_neg e]; exact hi⟩
            · exact inb (Or.inr hi)
        · intro i hi hlt
          have h3 : i ≠ cur := by
            rintro rfl; exact hi ((hF i).2 (Or.inr ⟨b, i, hb, hr.mem_root⟩))
          rw [gne i h3]
          exact hframe i (fun hh => hi ((hF i).2 (Or.inr ⟨b, cur, hb, hh⟩))) hlt

/-! ## remove -/

theorem mem_childList (ch : Children) (b : UInt8) (i : Nat) : (b, i) ∈ childList ch ↔ ch b = some i := by
  simp only [childList, List.mem_filterMap, Option.map_eq_some_iff, Prod.mk.injEq]
  constructor
  · rintro ⟨a, _, j, hj, rfl, rfl⟩; exact hj
  · intro h; exact ⟨b, mem_allBytes b, i, h, rfl, rfl⟩

theorem nodup_childList_fst (ch : Children) : ((childList ch).map Prod.fst).Nodup := by
  have : (childList ch).map Prod.fst = allBytes.filter (fun b => (ch b).isSome) := by
    rw [childList]
    generalize allBytes = l
    induction l with
    | nil => rfl
    | cons b l ih =>
      cases hb : ch b <;> simp [hb, ih]
  rw [this]; exact nodup_allBytes.filter _

/-- The pieces of a subtrie whose root is about to be written at `nid`. -/
structure Pieces (H : Bytes → Bytes) (c : Cache) (path : Bytes) (nid : Nat) (ch : Children)
    (FB : UInt8 → Nat → Prop) (VB : UInt8 → View) (S : Bytes → Prop) : Prop where
  nonempty : ∃ s, S s
  hnil : ¬ S []
  hno : ∀ b, ch b = none → ∀ s, ¬ S (b :: s)
  hrec : ∀ b c', ch b = some c' → Rep H c.cache (path ++ [b]) c' (fun s => S (b :: s)) (FB b) (VB b)
  hid : ∀ b c', ch b = some c' → ¬ FB b nid
  hdisj : ∀ b b' c c' i, ch b = some c → ch b' = some c' → FB b i → FB b' i → b = b'

theorem removeFinish_spec {c : Cache} (hw : c.WF) {path nid ch FB VB S}
    (hp : Pieces H c path nid ch FB VB S) (hlt : nid < c.next) :
    ∃ c' F' v', removeFinish ch nid path c = .ok (nid, c') ∧ c'.WF ∧ c'.next = c.next ∧
      Rep H c'.cache path nid S F' v' ∧
      (∀ i, F' i → i = nid ∨ ∃ b cb, ch b = some cb ∧ FB b i) ∧
      (∀ i, (i = nid ∨ ∃ b cb, ch b = some cb ∧ FB b i) → c'.cache i ≠ none → F' i) ∧
      (∀ i, i ≠ nid → (¬ ∃ b cb, ch b = some cb ∧ FB b i) → c'.cache i = c.cache i) := by
  -- storing an inner node
  have keep : (∃ s t, S s ∧ S t ∧ s ≠ t) → ∃ F' v',
      (c.setNode nid ⟨true, path, some ch⟩).WF ∧
      Rep H (c.setNode nid ⟨true, path, some ch⟩).cache path nid S F' v' ∧
      (∀ i, F' i → i = nid ∨ ∃ b cb, ch b = some cb ∧ FB b i) ∧
      (∀ i, (i = nid ∨ ∃ b cb, ch b = some cb ∧ FB b i) →
        (c.setNode nid ⟨true, path, some ch⟩).cache i ≠ none → F' i) ∧
      (∀ i, i ≠ nid → (¬ ∃ b cb, ch b = some cb ∧ FB b i) →
        (c.setNode nid ⟨true, path, some ch⟩).cache i = c.cache i) := by
    intro h2
    refine ⟨fun i => i = nid ∨ ∃ b cb, ch b = some cb ∧ FB b i, _, setNode_wf hw _ _ hlt,
      Rep.node _ _ _ _ true path ch FB VB ?_ hp.hnil hp.hno ?_ (fun i => Iff.rfl) hp.hid hp.hdisj h2
        (by intro h; cases h) (fun _ => rfl), fun i hi => hi, fun i hi _ => hi, ?_⟩
    · simp only [Cache.setNode]; rw [put_same]
    · intro b cb hb
      exact (hp.hrec b cb hb).frame _ (fun i hi => by
        simp only [Cache.setNode]; rw [put_ne]; rintro rfl; exact hp.hid b cb hb hi)
    · intro i hi _
      simp only [Cache.setNode]; rw [put_ne _ _ hi]
  have getS : ∀ b cb, ch b = some cb → ∃ s, S (b :: s) := fun b cb hb => (hp.hrec b cb hb).nonempty
  cases hcl : childList ch with
  | nil =>
    exfalso
    obtain ⟨s, hs⟩ := hp.nonempty
    cases s with
    | nil => exact hp.hnil hs
    | cons b s =>
      cases hb : ch b with
      | none => exact hp.hno b hb s hs
      | some cb => have := (mem_childList ch b cb).2 hb; rw [hcl] at this; cases this
  | cons p tl =>
    obtain ⟨b, cb⟩ := p
    have hb : ch b = some cb := (mem_childList ch b cb).1 (by rw [hcl]; exact List.mem_cons_self)
    cases tl with
    | cons q tl =>
      obtain ⟨b', cb'⟩ := q
      have hb' : ch b' = some cb' := (mem_childList ch b' cb').1 (by rw [hcl]; simp)
      have hne : b ≠ b' := by
        have := nodup_childList_fst ch
        rw [hcl] at this; simp at this; exact this.1.1
      obtain ⟨s, hs⟩ := getS b cb hb
      obtain ⟨s', hs'⟩ := getS b' cb' hb'
      obtain ⟨F', v', k1, k2, k3, k4, k5⟩ := keep ⟨_, _, hs, hs', by simp [hne]⟩
      exact ⟨_, F', v', by simp only [removeFinish, hcl], k1, rfl, k2, k3, k4, k5⟩
    | nil =>
      have honly : ∀ x cx, ch x = some cx → x = b := by
        intro x cx hx
        have := (mem_childList ch x cx).2 hx
        rw [hcl] at this; simp at this; exact this.1
      have hr := hp.hrec b cb hb
      obtain ⟨child, hchild⟩ := hr.some_of_mem cb hr.mem_root
      have hrun : removeFinish ch nid path c =
          if child.isLeaf then .ok (nid, (c.deleteNode cb).setNode nid ⟨false, b :: child.hash, none⟩)
          else .ok (nid, c.setNode nid ⟨true, path, some ch⟩) := by
        simp only [removeFinish, hcl, getNode_ok hw hchild, Res.ok_bind]
      generalize VB b = vb at hr
      cases hr with
      | leaf _ _ _ _ dty suffix hg hS hF =>
        rw [hchild] at hg; injection hg with hg; subst hg
        simp only [Node.isLeaf, Option.isNone_none, if_true] at hrun
        have hcbn : cb ≠ nid := by rintro rfl; exact hp.hid b cb hb ((hF _).2 rfl)
        refine ⟨_, fun i => i = nid, (true, b :: suffix), hrun,
          setNode_wf (deleteNode_wf hw _) _ _ hlt, rfl,
          Rep.leaf _ _ _ _ false (b :: suffix) ?_ ?_ (fun i => Iff.rfl), fun i hi => Or.inl hi, ?_, ?_⟩
        · simp only [Cache.setNode]; rw [put_same]
        · intro s
          constructor
          · intro hs
            cases s with
            | nil => exact absurd hs hp.hnil
            | cons x s =>
              cases hx : ch x with
              | none => exact absurd hs (hp.hno x hx s)
              | some cx =>
                have := honly x cx hx; subst this
                rw [(hS s).1 hs]
          · rintro rfl; exact (hS suffix).2 rfl
        · rintro i (rfl | ⟨x, cx, hx, hi⟩) hsome
          · rfl
          · exfalso
            have := honly x cx hx; subst this
            have := (hF i).1 hi; subst this
            apply hsome
            simp only [Cache.setNode, Cache.deleteNode]
            rw [put_ne _ _ hcbn, put_same]
        · intro i hi hnot
          simp only [Cache.setNode, Cache.deleteNode]
          rw [put_ne _ _ hi, put_ne]
          rintro rfl; exact hnot ⟨b, i, hb, (hF i).2 rfl⟩
      | node _ _ _ _ dty h chb FBb VBb hg hnil hno hrec hF hid hdisj h2 hclean hdirty =>
        rw [hchild] at hg; injection hg with hg; subst hg
        simp only [Node.isLeaf, Option.isNone_some, Bool.false_eq_true, if_false] at hrun
        obtain ⟨s, t, hs, ht, hne⟩ := h2
        obtain ⟨F', v', k1, k2, k3, k4, k5⟩ := keep ⟨b :: s, b :: t, hs, ht, by simp [hne]⟩
        exact ⟨_, F', v', hrun, k1, rfl, k2, k3, k4, k5⟩

theorem remove_spec (d : Bytes) : ∀ (self : Node) (c : Cache), c.WF → ∀ {path id S F v},
    c.cache id = some self → self.isLeaf = false → Rep H c.cache path id S F v →
    S d →
    ∃ id' c', remove d self path c = .ok (id', c') ∧ c'.next = c.next ∧
      StepOK H c c' path id id' F (fun s => S s ∧ s ≠ d) := by
  induction d with
  | nil =>
    intro self c hw path id S F v hself hleaf hrep hd
    cases hrep with
    | leaf _ _ _ _ dty suffix hg hS hF =>
      rw [hself] at hg; injection hg with hg; subst hg; simp [Node.isLeaf] at hleaf
    | node _ _ _ _ dty h ch FB VB hg hnil => exact absurd hd hnil
  | cons b rest ih =>
    intro self c hw path id S F v hself hleaf hrep hd
    have hlt := hrep.lt_next hw
    cases hrep with
    | leaf _ _ _ _ dty suffix hg hS hF =>
      rw [hself] at hg; injection hg with hg; subst hg; simp [Node.isLeaf] at hleaf
    | node _ _ _ _ dty h ch FB VB hg hnil hno hrec hF hid hdisj h2 hclean hdirty =>
      rw [hself] at hg; injection hg with hg; subst hg
      have hidlt : id < c.next := hlt id ((hF id).2 (Or.inl rfl))
      have hFBlt : ∀ x cx i, ch x = some cx → FB x i → i < c.next :=
        fun x cx i hx hi => hlt i ((hF i).2 (Or.inr ⟨x, cx, hx, hi⟩))
      cases hb : ch b with
      | none => exact absurd hd (hno b hb rest)
      | some nid =>
        have hr := hrec b nid hb
        have hnidlt : nid < c.next := hFBlt b nid nid hb hr.mem_root
        have hnidid : nid ≠ id := by rintro rfl; exact hid b nid hb hr.mem_root
        obtain ⟨node, hnode⟩ := hr.some_of_mem nid hr.mem_root
        have hS'ne : ∃ s, S s ∧ s ≠ b :: rest := by
          obtain ⟨s, t, hs, ht, hne⟩ := h2
          by_cases e : s = b :: rest
          · exact ⟨t, ht, fun e' => hne (by rw [e, e'])⟩
          · exact ⟨s, hs, e⟩
        have hother : ∀ x cx i, x ≠ b → ch x = some cx → FB x i → ¬ FB b i ∧ i ≠ nid := by
          intro x cx i hx hc hi
          have hnb : ¬ FB b i := fun hi' => hx (hdisj x b cx nid i hc hb hi hi')
          exact ⟨hnb, by rintro rfl; exact hnb hr.mem_root⟩
        cases hnl : node.isLeaf with
        | true =>
          -- the child is the leaf that holds the element
          have hleafS : ∀ s, S (b :: s) → s = rest := by
            generalize VB b = vb at hr
            cases hr with
            | leaf _ _ _ _ _ suffix _ hS _ =>
              intro s hs; rw [(hS s).1 hs, (hS rest).1 hd]
            | node _ _ _ _ _ _ _ _ _ hg' =>
              rw [hnode] at hg'; injection hg' with hg'; subst hg'; simp [Node.isLeaf] at hnl
          have hFb : ∀ i, FB b i ↔ i = nid := by
            generalize VB b = vb at hr
            cases hr with
            | leaf _ _ _ _ _ suffix _ hS hF => exact hF
            | node _ _ _ _ _ _ _ _ _ hg' =>
              rw [hnode] at hg'; injection hg' with hg'; subst hg'; simp [Node.isLeaf] at hnl
          have hold : ∀ x cx, upd ch b none x = some cx → x ≠ b ∧ ch x = some cx := by
            intro x cx hx
            by_cases e : x = b
            · subst e; rw [upd_same] at hx; cases hx
            · rw [upd_ne _ _ e] at hx; exact ⟨e, hx⟩
          have hp : Pieces H c path nid (upd ch b none) FB VB (fun s => S s ∧ s ≠ b :: rest) := by
            refine ⟨hS'ne, fun hs => hnil hs.1, ?_, ?_, ?_, ?_⟩
            · rintro x hx s ⟨hs, hne⟩
              by_cases e : x = b
              · subst e; exact hne (by rw [hleafS s hs])
              · rw [upd_ne _ _ e] at hx; exact hno x hx s hs
            · intro x cx hx
              obtain ⟨e, hx'⟩ := hold x cx hx
              refine (hrec x cx hx').congrS (fun s => ?_)
              simp [e]
            · intro x cx hx hi
              obtain ⟨e, hx'⟩ := hold x cx hx
              exact (hother x cx _ e hx' hi).2 rfl
            · intro x x' cx cx' i hx hx' hi hi'
              exact hdisj x x' cx cx' i (hold x cx hx).2 (hold x' cx' hx').2 hi hi'
          obtain ⟨c', F', v', k1, k2, k3, k4, k5, k6, k7⟩ := removeFinish_spec hw hp hnidlt
          refine ⟨nid, c', ?_, k3, ⟨k2, by omega, ⟨F', v', k4, ?_, ?_, ?_⟩, ?_⟩⟩
          · rw [remove]; simp only [hb, getNode_ok hw hnode, Res.ok_bind, hnl, if_true]; exact k1
          · intro hi
            rcases k5 id hi with e | ⟨x, cx, hx, hi⟩
            · exact hnidid e.symm
            · exact hid x cx (hold x cx hx).2 hi
          · intro i hi
            rcases k5 i hi with rfl | ⟨x, cx, hx, hi⟩
            · exact Or.inl ((hF i).2 (Or.inr ⟨b, i, hb, hr.mem_root⟩))
            · exact Or.inl ((hF i).2 (Or.inr ⟨x, cx, (hold x cx hx).2, hi⟩))
          · intro i hne hi hsome
            rcases hi with hi | hi
            · rcases (hF i).1 hi with rfl | ⟨x, cx, hx, hi⟩
              · exact absurd rfl hne
              · by_cases e : x = b
                · subst e; exact k6 i (Or.inl ((hFb i).1 hi)) hsome
                · exact k6 i (Or.inr ⟨x, cx, by rw [upd_ne _ _ e]; exact hx, hi⟩) hsome
            · exact absurd (k2.fresh i (by omega)) hsome
          · intro i hi _
            refine k7 i ?_ ?_
            · rintro rfl; exact hi ((hF i).2 (Or.inr ⟨b, i, hb, hr.mem_root⟩))
            · rintro ⟨x, cx, hx, hi'⟩
              exact hi ((hF i).2 (Or.inr ⟨x, cx, (hold x cx hx).2, hi'⟩))
        | false =>
          obtain ⟨u, c1, h1, hn1, ⟨w1, m1, ⟨Fb', v1, hrep1, hnc, hsub, hsup⟩, hframe⟩⟩ :=
            ih node c hw hnode hnl hr hd
          let FB' : UInt8 → Nat → Prop := fun x i => if x = b then Fb' i else FB x i
          let VB' : UInt8 → View := fun x => if x = b then v1 else VB x
          have hold : ∀ x cx, x ≠ b → upd ch b (some u) x = some cx → ch x = some cx := by
            intro x cx hx h; rwa [upd_ne _ _ hx] at h
          have hsub' : ∀ i, Fb' i → FB b i := by
            intro i hi
            rcases hsub i hi with hh | hh
            · exact hh
            · exfalso
              obtain ⟨n, hn⟩ := hrep1.some_of_mem i hi
              rw [w1.fresh i (by omega)] at hn; cases hn
          have hp : Pieces H c1 path nid (upd ch b (some u)) FB' VB'
              (fun s => S s ∧ s ≠ b :: rest) := by
            refine ⟨hS'ne, fun hs => hnil hs.1, ?_, ?_, ?_, ?_⟩
            · rintro x hx s ⟨hs, hne⟩
              by_cases e : x = b
              · subst e; rw [upd_same] at hx; cases hx
              · rw [upd_ne _ _ e] at hx; exact hno x hx s hs
            · intro x cx hx
              by_cases e : x = b
              · subst e
                rw [upd_same] at hx; injection hx with hx; subst hx
                simp only [FB', VB', if_true]
                refine hrep1.congrS (fun s => ?_)
                simp
              · have hx' := hold x cx e hx
                simp only [FB', VB', if_neg e]
                refine ((hrec x cx hx').frame c1.cache (fun i hi =>
                  hframe i (hother x cx i e hx' hi).1 (hFBlt x cx i hx' hi))).congrS (fun s => ?_)
                simp [e]
            · intro x cx hx hi
              by_cases e : x = b
              · simp only [FB', if_pos e] at hi; exact hnc hi
              · simp only [FB', if_neg e] at hi
                exact (hother x cx _ e (hold x cx e hx) hi).2 rfl
            · intro x x' cx cx' i hx hx' hi hi'
              by_cases e : x = b <;> by_cases e' : x' = b
              · rw [e, e']
              · simp only [FB', if_pos e, if_neg e'] at hi hi'
                exact absurd (hsub' i hi) (hother x' cx' i e' (hold x' cx' e' hx') hi').1
              · simp only [FB', if_neg e, if_pos e'] at hi hi'
                exact absurd (hsub' i hi') (hother x cx i e (hold x cx e hx) hi).1
              · simp only [FB', if_neg e, if_neg e'] at hi hi'
                exact hdisj x x' cx cx' i (hold x cx e hx) (hold x' cx' e' hx') hi hi'
          have hup : ∀ x cx i, upd ch b (some u) x = some cx → FB' x i → ∃ y cy, ch y = some cy ∧ FB y i := by
            intro x cx i hx hi
            by_cases e : x = b
            · simp only [FB', if_pos e] at hi; exact ⟨b, nid, hb, hsub' i hi⟩
            · simp only [FB', if_neg e] at hi; exact ⟨x, cx, hold x cx e hx, hi⟩
          obtain ⟨c', F', v', k1, k2, k3, k4, k5, k6, k7⟩ := removeFinish_spec w1 hp (by omega)
          refine ⟨nid, c', ?_, by omega, ⟨k2, by omega, ⟨F', v', k4, ?_, ?_, ?_⟩, ?_⟩⟩
          · rw [remove]
            simp only [hb, getNode_ok hw hnode, Res.ok_bind, hnl, Bool.false_eq_true, if_false, h1]
            exact k1
          · intro hi
            rcases k5 id hi with e | ⟨x, cx, hx, hi⟩
            · exact hnidid e.symm
            · obtain ⟨y, cy, hy, hi⟩ := hup x cx id hx hi
              exact hid y cy hy hi
          · intro i hi
            rcases k5 i hi with rfl | ⟨x, cx, hx, hi⟩
            · exact Or.inl ((hF i).2 (Or.inr ⟨b, i, hb, hr.mem_root⟩))
            · exact Or.inl ((hF i).2 (Or.inr (hup x cx i hx hi)))
          · intro i hne hi hsome
            rcases hi with hi | hi
            · rcases (hF i).1 hi with rfl | ⟨x, cx, hx, hi⟩
              · exact absurd rfl hne
              · by_cases e : x = b
                · subst e
                  by_cases hin : i = nid
                  · exact k6 i (Or.inl hin) hsome
                  · by_cases hFi : Fb' i
                    · exact k6 i (Or.inr ⟨x, u, upd_same _ _ _, by simp only [FB', if_true]; exact hFi⟩) hsome
                    · have hc' : c'.cache i = c1.cache i := by
                        refine k7 i hin ?_
                        rintro ⟨y, cy, hy, hi'⟩
                        by_cases e' : y = x
                        · simp only [FB', if_pos e'] at hi'; exact hFi hi'
                        · simp only [FB', if_neg e'] at hi'
                          exact (hother y cy i e' (hold y cy e' hy) hi').1 hi
                      rw [hc'] at hsome
                      exact absurd (hsup i hin (Or.inl hi) hsome) hFi
                · exact k6 i (Or.inr ⟨x, cx, by rw [upd_ne _ _ e]; exact hx,
                    by simp only [FB', if_neg e]; exact hi⟩) hsome
            · exact absurd (k2.fresh i (by omega)) hsome
          · intro i hi hilt
            have hnb : ¬ FB b i := fun h' => hi ((hF i).2 (Or.inr ⟨b, nid, hb, h'⟩))
            rw [k7 i ?_ ?_]
            · exact hframe i hnb hilt
            · rintro rfl; exact hnb hr.mem_root
            · rintro ⟨x, cx, hx, hi'⟩
              exact hi ((hF i).2 (Or.inr (hup x cx i hx hi')))

end Verif.Trie
