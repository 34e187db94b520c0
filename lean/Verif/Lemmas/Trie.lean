import Verif.Lemmas.TrieCodec
/-!
# Representation invariant of the merkle trie
-/

namespace Verif.Trie
open Verif

/-- What a parent hashes about a child: leaf flag and hash bytes. -/
abbrev View := Bool × Bytes

/-- The string hashed for an inner node. -/
def nodeBuffer (path : Bytes) (vs : List (UInt8 × View)) : Bytes :=
  UInt8.ofNat path.length :: (path ++ vs.flatMap (fun p =>
    (if p.2.1 then 0 else 1) :: UInt8.ofNat p.2.2.length :: p.1 :: p.2.2))

/-- Views of the present children in index order. -/
def childViews (ch : Children) (VB : UInt8 → View) : List (UInt8 × View) :=
  allBytes.filterMap (fun b => (ch b).map (fun _ => (b, VB b)))

/-- `Rep H g path id S F v`: in the node table `g`, identifier `id` is the root of a subtrie at
`path` holding exactly the suffixes `S`, made of exactly the identifiers `F`, and `v` is what its
parent must hash. -/
inductive Rep (H : Bytes → Bytes) (g : Nat → Option Node) :
    Bytes → Nat → (Bytes → Prop) → (Nat → Prop) → View → Prop where
  | leaf (path : Bytes) (id : Nat) (S : Bytes → Prop) (F : Nat → Prop) (dty : Bool) (suffix : Bytes)
      (hg : g id = some ⟨dty, suffix, none⟩) (hS : ∀ s, S s ↔ s = suffix) (hF : ∀ i, F i ↔ i = id) :
      Rep H g path id S F (true, suffix)
  | node (path : Bytes) (id : Nat) (S : Bytes → Prop) (F : Nat → Prop) (dty : Bool) (h : Bytes)
      (ch : Children) (FB : UInt8 → Nat → Prop) (VB : UInt8 → View)
      (hg : g id = some ⟨dty, h, some ch⟩)
      (hnil : ¬ S [])
      (hno : ∀ b, ch b = none → ∀ s, ¬ S (b :: s))
      (hrec : ∀ b c, ch b = some c → Rep H g (path ++ [b]) c (fun s => S (b :: s)) (FB b) (VB b))
      (hF : ∀ i, F i ↔ i = id ∨ ∃ b c, ch b = some c ∧ FB b i)
      (hid : ∀ b c, ch b = some c → ¬ FB b id)
      (hdisj : ∀ b b' c c' i, ch b = some c → ch b' = some c' → FB b i → FB b' i → b = b')
      (h2 : ∃ s t, S s ∧ S t ∧ s ≠ t)
      (hclean : dty = false → h = H (nodeBuffer path (childViews ch VB)))
      (hdirty : dty = true → h = path) :
      Rep H g path id S F (false, H (nodeBuffer path (childViews ch VB)))

variable {H : Bytes → Bytes}

theorem Rep.nonempty {g path id S F v} (h : Rep H g path id S F v) : ∃ s, S s := by
  cases h with
  | leaf _ _ _ _ _ suffix _ hS => exact ⟨suffix, (hS _).2 rfl⟩
  | node _ _ _ _ _ _ _ _ _ _ _ _ _ _ _ _ h2 => obtain ⟨s, _, hs, _⟩ := h2; exact ⟨s, hs⟩

theorem Rep.mem_root {g path id S F v} (h : Rep H g path id S F v) : F id := by
  cases h with
  | leaf _ _ _ _ _ _ _ _ hF => exact (hF _).2 rfl
  | node _ _ _ _ _ _ _ _ _ _ _ _ _ hF => exact (hF _).2 (Or.inl rfl)

theorem Rep.some_of_mem {g path id S F v} (h : Rep H g path id S F v) :
    ∀ i, F i → ∃ n, g i = some n := by
  induction h with
  | leaf _ _ _ _ _ _ hg _ hF => intro i hi; rw [(hF i).1 hi]; exact ⟨_, hg⟩
  | node _ _ _ _ _ _ _ _ _ hg _ _ _ hF _ _ _ _ _ ih =>
    intro i hi
    rcases (hF i).1 hi with rfl | ⟨b, c, hb, hi⟩
    · exact ⟨_, hg⟩
    · exact ih b c hb i hi

/-- A subtrie depends only on the nodes of its footprint. -/
theorem Rep.frame {g path id S F v} (h : Rep H g path id S F v) (g' : Nat → Option Node)
    (heq : ∀ i, F i → g' i = g i) : Rep H g' path id S F v := by
  induction h with
  | leaf path id S F dty suffix hg hS hF =>
    exact Rep.leaf path id S F dty suffix (by rw [heq id ((hF id).2 rfl)]; exact hg) hS hF
  | node path id S F dty h ch FB VB hg hnil hno hrec hF hid hdisj h2 hclean hdirty ih =>
    refine Rep.node path id S F dty h ch FB VB (by rw [heq id ((hF id).2 (Or.inl rfl))]; exact hg)
      hnil hno ?_ hF hid hdisj h2 hclean hdirty
    intro b c hb
    exact ih b c hb (fun i hi => heq i ((hF i).2 (Or.inr ⟨b, c, hb, hi⟩)))

theorem Rep.congrS {g path id S S' F v} (h : Rep H g path id S F v) (e : ∀ s, S s ↔ S' s) :
    Rep H g path id S' F v := by
  have : S = S' := funext (fun s => propext (e s))
  exact this ▸ h

/-- Cache and storage agree, and identifiers from `next` on are unused. -/
structure Cache.WF (c : Cache) : Prop where
  sync : ∀ i, c.storage i = (c.cache i).map Node.serialize
  fresh : ∀ i, c.next ≤ i → c.cache i = none

theorem Cache.WF.new : Cache.new.WF := ⟨fun _ => rfl, fun _ _ => rfl⟩

theorem getNode_ok {c : Cache} (h : c.WF) {i : Nat} {n : Node} (hi : c.cache i = some n) :
    c.getNode i = .ok (n, c) := by
  have hs := h.sync i
  rw [hi] at hs
  simp [Cache.getNode, hs, deserialize_serialize, hi]

theorem setNode_wf {c : Cache} (h : c.WF) (i : Nat) (n : Node) (hi : i < c.next) :
    (c.setNode i n).WF := by
  constructor
  · intro j
    simp only [Cache.setNode, storeNode, put]
    by_cases e : j = i
    · have : n.serialize.isEmpty = false := by simpa using serialize_ne_nil n
      simp [e, this]
    · simp [e, h.sync j]
  · intro j hj
    simp only [Cache.setNode, put] at hj ⊢
    rw [if_neg (by omega)]; exact h.fresh j hj

theorem deleteNode_wf {c : Cache} (h : c.WF) (i : Nat) : (c.deleteNode i).WF := by
  constructor
  · intro j
    simp only [Cache.deleteNode, storeNode, put]
    by_cases e : j = i
    · simp [e]
    · simp [e, h.sync j]
  · intro j hj
    simp only [Cache.deleteNode, put] at hj ⊢
    split
    · rfl
    · exact h.fresh j hj

/-- `allocate` followed by `set_node` on the new identifier. -/
def Cache.allocSet (c : Cache) (n : Node) : Cache := c.allocate.2.setNode c.allocate.1 n

theorem allocSet_cache (c : Cache) (n : Node) : (c.allocSet n).cache = put c.cache c.next (some n) := by
  funext i; simp only [Cache.allocSet, Cache.allocate, Cache.setNode, put]
  by_cases e : i = c.next <;> simp [e]

theorem allocSet_next (c : Cache) (n : Node) : (c.allocSet n).next = c.next + 1 := rfl

theorem allocSet_wf {c : Cache} (h : c.WF) (n : Node) : (c.allocSet n).WF := by
  constructor
  · intro j
    rw [allocSet_cache]
    simp only [Cache.allocSet, Cache.allocate, Cache.setNode, storeNode, put]
    by_cases e : j = c.next
    · have : n.serialize.isEmpty = false := by simpa using serialize_ne_nil n
      simp [e, this]
    · simp [e, h.sync j]
  · intro j hj
    rw [allocSet_next] at hj
    rw [allocSet_cache, put, if_neg (by omega)]; exact h.fresh j (by omega)

@[simp] theorem put_same {α : Type} (f : Nat → Option α) (i : Nat) (v : Option α) : put f i v i = v := by
  simp [put]

theorem put_ne {α : Type} (f : Nat → Option α) {i j : Nat} (v : Option α) (h : j ≠ i) :
    put f i v j = f j := by simp [put, h]

theorem Rep.lt_next {c : Cache} (hw : c.WF) {path id S F v} (h : Rep H c.cache path id S F v) :
    ∀ i, F i → i < c.next := by
  intro i hi
  obtain ⟨n, hn⟩ := h.some_of_mem i hi
  by_contra hlt
  rw [hw.fresh i (by omega)] at hn; cases hn

/-! ## find -/

/-- At most one member starts with `d`. -/
def NoFork (S : Bytes → Prop) (d : Bytes) : Prop := ∀ s t, S (d ++ s) → S (d ++ t) → s = t

theorem NoFork.of_len {S : Bytes → Prop} {d : Bytes} (h : ∀ s, S s → s.length = d.length) : NoFork S d := by
  intro s t hs ht
  have h1 := h _ hs; have h2 := h _ ht
  rw [List.length_append] at h1 h2
  rw [List.length_eq_zero_iff.1 (show s.length = 0 by omega), List.length_eq_zero_iff.1 (show t.length = 0 by omega)]

/-- No member starts with `d` or is a start of `d`. -/
def Apart (S : Bytes → Prop) (d : Bytes) : Prop := ∀ s, S s → ¬ s <+: d ∧ ¬ d <+: s

theorem Apart.of_len {S : Bytes → Prop} {d : Bytes} (h : ∀ s, S s → s.length = d.length) (hd : ¬ S d) : Apart S d :=
  fun s hs => ⟨fun p => hd (p.eq_of_length (h s hs) ▸ hs), fun p => hd (p.eq_of_length (h s hs).symm ▸ hs)⟩

theorem find_spec {c : Cache} (hw : c.WF) (d : Bytes) : ∀ (self : Node) {path id S F v},
    c.cache id = some self → Rep H c.cache path id S F v → NoFork S d →
    ∃ r, find d self c = .ok (r, c) ∧ (r = true ↔ S d) := by
  induction d with
  | nil =>
    intro self path id S F v hself hrep hlen
    cases hrep with
    | leaf _ _ _ _ dty suffix hg hS hF =>
      rw [hself] at hg; injection hg with hg; subst hg
      exact ⟨decide ([] = suffix), by simp [find], by simp [hS]⟩
    | node _ _ _ _ dty h ch FB VB hg hnil hno hrec hF hid hdisj h2 hclean hdirty =>
      obtain ⟨s, t, hs, ht, hne⟩ := h2
      exact absurd (hlen s t hs ht) hne
  | cons b rest ih =>
    intro self path id S F v hself hrep hlen
    cases hrep with
    | leaf _ _ _ _ dty suffix hg hS hF =>
      rw [hself] at hg; injection hg with hg; subst hg
      exact ⟨decide (b :: rest = suffix), by simp [find], by simp [hS]⟩
    | node _ _ _ _ dty h ch FB VB hg hnil hno hrec hF hid hdisj h2 hclean hdirty =>
      rw [hself] at hg; injection hg with hg; subst hg
      cases hb : ch b with
      | none => exact ⟨false, by simp [find, hb], by simp [hno b hb rest]⟩
      | some cid =>
        have hr := hrec b cid hb
        obtain ⟨child, hchild⟩ := hr.some_of_mem cid hr.mem_root
        obtain ⟨r, h1, h2⟩ := ih child hchild hr (fun s t hs ht => hlen s t hs ht)
        exact ⟨r, by rw [find]; simp only [hb, getNode_ok hw hchild, Res.ok_bind, h1], h2⟩

/-! ## add -/

/-- What an operation on a subtrie guarantees to its caller: `id` is the old root of the subtrie,
which is not part of the new one and may be overwritten or deleted. -/
structure StepOK (H : Bytes → Bytes) (c c' : Cache) (path : Bytes) (id id' : Nat)
    (F : Nat → Prop) (S' : Bytes → Prop) : Prop where
  wf : c'.WF
  mono : c.next ≤ c'.next
  rep : ∃ F' v', Rep H c'.cache path id' S' F' v' ∧ ¬ F' id ∧ (∀ i, F' i → F i ∨ c.next ≤ i) ∧
    (∀ i, i ≠ id → (F i ∨ c.next ≤ i) → c'.cache i ≠ none → F' i)
  frame : ∀ i, ¬ F i → i < c.next → c'.cache i = c.cache i

theorem diffIndex_spec {ε : Type} (a b : Bytes) (h1 : ¬ a <+: b) (h2 : ¬ b <+: a) :
    ∃ p x y s t, a = p ++ x :: s ∧ b = p ++ y :: t ∧ x ≠ y ∧
      (diffIndex a b : Res ε Nat) = .ok p.length := by
  induction a generalizing b with
  | nil => exact absurd List.nil_prefix h1
  | cons x a ih =>
    cases b with
    | nil => exact absurd List.nil_prefix h2
    | cons y b =>
      by_cases e : x = y
      · subst e
        obtain ⟨p, x', y', s, t, h1, h2, h3, h4⟩ := ih b
          (fun p => h1 (List.cons_prefix_cons.2 ⟨rfl, p⟩)) (fun p => h2 (List.cons_prefix_cons.2 ⟨rfl, p⟩))
        exact ⟨x :: p, x', y', s, t, by rw [h1]; rfl, by rw [h2]; rfl, h3, by simp [diffIndex, h4]⟩
      · exact ⟨[], x, y, a, b, rfl, rfl, e, by simp [diffIndex, e]⟩

/-- The chain of single-child parents. `base` bounds the new identifiers from below. -/
theorem buildChain_spec (path d : Bytes) (base : Nat) : ∀ (n : Nat), n ≤ d.length →
    ∀ (id : Nat) (c : Cache) (S : Bytes → Prop) (F : Nat → Prop) (v : View), c.WF →
    Rep H c.cache (path ++ d.take n) id S F v → (∃ s t, S s ∧ S t ∧ s ≠ t) →
    (∀ i, F i ↔ base ≤ i ∧ i < c.next) → base ≤ c.next →
    ∃ id' c' F' v', buildChain path d n id c = .ok (id', c') ∧ c'.WF ∧ c.next ≤ c'.next ∧
      Rep H c'.cache path id' (fun s => ∃ t, s = d.take n ++ t ∧ S t) F' v' ∧
      (∀ i, F' i ↔ base ≤ i ∧ i < c'.next) ∧ (∀ i, i < c.next → c'.cache i = c.cache i) := by
  intro n
  induction n with
  | zero =>
    intro _ id c S F v hw hrep h2 hF hb
    refine ⟨id, c, F, v, rfl, hw, Nat.le_refl _, ?_, hF, fun _ _ => rfl⟩
    simp only [List.take_zero, List.append_nil] at hrep
    refine hrep.congrS ?_
    intro s; simp
  | succ n ih =>
    intro hn id c S F v hw hrep h2 hF hb
    have hlt : n < d.length := by omega
    have hd : d[n]? = some d[n] := List.getElem?_eq_getElem hlt
    have htake : d.take (n + 1) = d.take n ++ [d[n]] := by simp
    generalize hnd : (⟨true, path ++ d.take n, some (upd noChildren d[n] (some id))⟩ : Node) = nd
    have hbc : buildChain path d (n + 1) id c = buildChain path d n c.next (c.allocSet nd) := by
      rw [buildChain, hd]; simp only [Cache.allocSet, Cache.allocate, hnd]
    have hrep' : Rep H (c.allocSet nd).cache (path ++ d.take (n + 1)) id S F v :=
      hrep.frame _ (fun i hi => by
        rw [allocSet_cache, put_ne]; have := (hF i).1 hi; omega)
    have hnode : Rep H (c.allocSet nd).cache (path ++ d.take n) c.next
        (fun s => ∃ t, s = d[n] :: t ∧ S t) (fun i => base ≤ i ∧ i < c.next + 1)
        (false, H (nodeBuffer (path ++ d.take n)
          (childViews (upd noChildren d[n] (some id)) (fun _ => v)))) := by
      refine Rep.node _ _ _ _ true (path ++ d.take n) (upd noChildren d[n] (some id))
        (fun _ => F) (fun _ => v) ?_ ?_ ?_ ?_ ?_ ?_ ?_ ?_ ?_ ?_
      · rw [allocSet_cache, put_same, hnd]
      · rintro ⟨t, h, _⟩; cases h
      · rintro b hb s ⟨t, h, _⟩
        injection h with h1 h2
        subst h1; simp [upd] at hb
      · intro b cc hbc
        have hbe : b = d[n] := by
          by_contra hne; simp [upd, hne, noChildren] at hbc
        subst hbe
        simp only [upd, if_true, Option.some.injEq] at hbc
        subst hbc
        rw [htake, ← List.append_assoc] at hrep'
        exact hrep'.congrS (fun s => by simp)
      · intro i
        constructor
        · rintro ⟨h1, h2⟩
          by_cases e : i = c.next
          · exact Or.inl e
          · exact Or.inr ⟨d[n], id, by simp [upd], (hF i).2 ⟨h1, by omega⟩⟩
        · rintro (rfl | ⟨b, cc, _, hi⟩)
          · exact ⟨hb, by omega⟩
          · have := (hF i).1 hi; exact ⟨this.1, by omega⟩
      · intro b cc _ hi
        have := (hF _).1 hi; omega
      · intro b b' cc cc' i hb hb' _ _
        have h1 : b = d[n] := by by_contra hne; simp [upd, hne, noChildren] at hb
        have h2 : b' = d[n] := by by_contra hne; simp [upd, hne, noChildren] at hb'
        rw [h1, h2]
      · obtain ⟨s, t, hs, ht, hne⟩ := h2
        exact ⟨d[n] :: s, d[n] :: t, ⟨s, rfl, hs⟩, ⟨t, rfl, ht⟩, by simpa using hne⟩
      · intro h; cases h
      · intro _; rfl
    obtain ⟨id', c', F', v', e1, e2, e3, e4, e5, e6⟩ := ih (by omega) c.next (c.allocSet nd) _ _ _
      (allocSet_wf hw nd) hnode
      (by
        obtain ⟨s, t, hs, ht, hne⟩ := h2
        exact ⟨d[n] :: s, d[n] :: t, ⟨s, rfl, hs⟩, ⟨t, rfl, ht⟩, by simpa using hne⟩)
      (fun i => by rw [allocSet_next]) (by rw [allocSet_next]; omega)
    rw [allocSet_next] at e3
    refine ⟨id', c', F', v', by rw [hbc]; exact e1, e2, by omega, e4.congrS ?_, e5, ?_⟩
    · intro s
      rw [htake]
      constructor
      · rintro ⟨t, rfl, u, rfl, hu⟩; exact ⟨u, by rw [List.append_assoc]; rfl, hu⟩
      · rintro ⟨t, rfl, ht⟩; exact ⟨d[n] :: t, by rw [List.append_assoc]; rfl, t, rfl, ht⟩
    · intro i hi
      rw [e6 i (by rw [allocSet_next]; omega), allocSet_cache, put_ne]; omega

theorem addLeaf_spec {c : Cache} (hw : c.WF) (self : Node) (d path : Bytes) (id : Nat)
    (F : Nat → Prop) (hF : ∀ i, F i → i < c.next) (hid : F id) (hF1 : ∀ i, F i → i = id)
    (hl : ¬ self.hash <+: d) (hne : ¬ d <+: self.hash) :
    ∃ id' c', addLeaf self d path c = .ok (id', c') ∧
      StepOK H c c' path id id' F (fun s => s = self.hash ∨ s = d) := by
  obtain ⟨p, x, y, s, t, h1, h2, h3, h4⟩ := diffIndex_spec (ε := CacheError) self.hash d hl hne
  have hdx : d[p.length]? = some y := by rw [h2]; simp
  have hhx : self.hash[p.length]? = some x := by rw [h1]; simp
  have hdd : d.drop (p.length + 1) = t := by rw [h2, List.drop_append]; simp
  have hhd : self.hash.drop (p.length + 1) = s := by rw [h1, List.drop_append]; simp
  have hdt : d.take p.length = p := by rw [h2]; simp
  let c1 := c.allocSet ⟨false, s, none⟩
  let c2 := c1.allocSet ⟨false, t, none⟩
  let ch : Children := upd (upd noChildren y (some (c.next + 1))) x (some c.next)
  let c3 := c2.allocSet ⟨true, path ++ p, some ch⟩
  have hrun : addLeaf self d path c = buildChain path d p.length (c.next + 2) c3 := by
    simp only [addLeaf, h4, Res.ok_bind, hdd, hhd, hdx, hhx, hdt]
    rfl
  have w1 : c1.WF := allocSet_wf hw _
  have w2 : c2.WF := allocSet_wf w1 _
  have w3 : c3.WF := allocSet_wf w2 _
  have g0 : c3.cache c.next = some ⟨false, s, none⟩ := by
    simp only [c3, c2, c1, allocSet_cache, allocSet_next]
    rw [put_ne _ _ (by omega), put_ne _ _ (by omega), put_same]
  have g1 : c3.cache (c.next + 1) = some ⟨false, t, none⟩ := by
    simp only [c3, c2, c1, allocSet_cache, allocSet_next]
    rw [put_ne _ _ (by omega), put_same]
  have g2 : c3.cache (c.next + 2) = some ⟨true, path ++ p, some ch⟩ := by
    simp only [c3, c2, c1, allocSet_cache, allocSet_next]
    rw [put_same]
  have gold : ∀ i, i < c.next → c3.cache i = c.cache i := by
    intro i hi
    simp only [c3, c2, c1, allocSet_cache, allocSet_next]
    rw [put_ne _ _ (by omega), put_ne _ _ (by omega), put_ne _ _ (by omega)]
  have hn3 : c3.next = c.next + 3 := rfl
  have chx : ch x = some c.next := by simp [ch, upd]
  have chy : ch y = some (c.next + 1) := by simp [ch, upd, Ne.symm h3]
  have chn : ∀ b, b ≠ x → b ≠ y → ch b = none := by
    intro b hb hb'; simp [ch, upd, hb, hb', noChildren]
  have hrep : Rep H c3.cache (path ++ d.take p.length) (c.next + 2)
      (fun u => u = x :: s ∨ u = y :: t) (fun i => c.next ≤ i ∧ i < c3.next)
      (false, H (nodeBuffer (path ++ d.take p.length) (childViews ch
        (fun b => if b = x then (true, s) else (true, t))))) := by
    rw [hdt]
    refine Rep.node _ _ _ _ true (path ++ p) ch
      (fun b i => if b = x then i = c.next else i = c.next + 1) _ g2 ?_ ?_ ?_ ?_ ?_ ?_ ?_ ?_ ?_
    · rintro (h | h) <;> cases h
    · rintro b hb u (h | h)
      · injection h with h _; subst h; rw [chx] at hb; cases hb
      · injection h with h _; subst h; rw [chy] at hb; cases hb
    · intro b cc hb
      by_cases hbx : b = x
      · subst hbx
        rw [chx] at hb; injection hb with hb; subst hb
        simp only [if_true]
        exact Rep.leaf _ _ _ _ false s g0 (by intro u; simp [h3]) (by intro i; simp)
      · by_cases hby : b = y
        · subst hby
          rw [chy] at hb; injection hb with hb; subst hb
          simp only [if_neg hbx]
          exact Rep.leaf _ _ _ _ false t g1 (by intro u; simp [hbx]) (by intro i; simp)
        · rw [chn b hbx hby] at hb; cases hb
    · intro i
      rw [hn3]
      constructor
      · rintro ⟨a, b⟩
        by_cases e : i = c.next + 2
        · exact Or.inl e
        · right
          by_cases e' : i = c.next
          · exact ⟨x, _, chx, by simp [e']⟩
          · exact ⟨y, _, chy, by simp [Ne.symm h3]; omega⟩
      · rintro (rfl | ⟨b, cc, _, hi⟩)
        · omega
        · split at hi <;> omega
    · intro b cc _ hi
      split at hi <;> omega
    · intro b b' cc cc' i hb hb' hi hi'
      have hb1 : b = x ∨ b = y := by
        by_contra hcon; rw [not_or] at hcon; rw [chn b hcon.1 hcon.2] at hb; cases hb
      have hb2 : b' = x ∨ b' = y := by
        by_contra hcon; rw [not_or] at hcon; rw [chn b' hcon.1 hcon.2] at hb'; cases hb'
      rcases hb1 with rfl | rfl <;> rcases hb2 with rfl | rfl
      · rfl
      · simp only [if_true, if_neg (Ne.symm h3)] at hi hi'; omega
      · simp only [if_true, if_neg (Ne.symm h3)] at hi hi'; omega
      · rfl
    · exact ⟨x :: s, y :: t, Or.inl rfl, Or.inr rfl, by simp [h3]⟩
    · intro h; cases h
    · intro _; rfl
  obtain ⟨id', c', F', v', e1, e2, e3, e4, e5, e6⟩ := buildChain_spec path d c.next p.length
    (by rw [h2]; simp) (c.next + 2) c3 _ _ _ w3 hrep
    ⟨x :: s, y :: t, Or.inl rfl, Or.inr rfl, by simp [h3]⟩ (fun i => Iff.rfl) (by rw [hn3]; omega)
  rw [hn3] at e3
  refine ⟨id', c', by rw [hrun]; exact e1, ⟨e2, by omega, ⟨F', v', e4.congrS ?_, ?_, ?_, ?_⟩, ?_⟩⟩
  · intro u
    rw [hdt]
    constructor
    · rintro ⟨w, rfl, rfl | rfl⟩
      · exact Or.inl h1.symm
      · exact Or.inr h2.symm
    · rintro (rfl | rfl)
      · exact ⟨_, h1, Or.inl rfl⟩
      · exact ⟨_, h2, Or.inr rfl⟩
  · intro h; have := (e5 _).1 h; have := hF id hid; omega
  · intro i hi; exact Or.inr ((e5 i).1 hi).1
  · intro i hne hi hsome
    rcases hi with hi | hi
    · exact absurd (hF1 i hi) hne
    · rw [e5]
      refine ⟨hi, ?_⟩
      by_contra hge
      exact hsome (e2.fresh i (by omega))
  · intro i _ hi
    rw [e6 i (by rw [hn3]; omega), gold i hi]

end Verif.Trie
