import Verif.Props.TrieAny
import Mathlib.Data.List.Dedup
import Mathlib.Data.List.Infix
import Mathlib.Data.List.Perm.Subperm
/-!
# C142: what the merkle trie stores depends on the set alone, up to the identifiers
-/

namespace Verif.Props
open Verif Verif.Trie

variable {H : Bytes → Bytes}

/-- The trie at the end of a history; a crash leaves none. -/
def endAny (H : Bytes → Bytes) (t : Trie) : List TrieOp → Option Trie
  | [] => some t
  | op :: ops =>
    match callOk H t op with
    | .ok (_, t') => endAny H t' ops
    | .err _ => endAny H t ops
    | .panic => none

/-! ## Specification -/

/-- Two different members start with `p`. -/
def ForkAt (S : Bytes → Prop) (p : Bytes) : Prop := ∃ s t, S (p ++ s) ∧ S (p ++ t) ∧ s ≠ t

/-- The nodes found by `get`, those with `F`, are one for each member and one for each string that two members start with.
`name` tells which is which. The node of a member holds what is left of it after the shortest start that it shares with no
other member. The node of a shared string `p` has the child `b` exactly if a member starts with `p` and then `b`; the child
is the node of `p` followed by `b`, or of the only member that starts so. -/
structure Shape (S : Bytes → Prop) (get : Nat → Option Node) (F : Nat → Prop) (name : Nat → Bytes) : Prop where
  named : ∀ i, F i → S (name i) ∨ ForkAt S (name i)
  inj : ∀ i j, F i → F j → name i = name j → i = j
  surj : ∀ p, S p ∨ ForkAt S p → ∃ i, F i ∧ name i = p
  leaf : ∀ i, F i → S (name i) → ∃ n pos, get i = some n ∧ n.children = none ∧ name i = pos ++ n.hash ∧
    ¬ ForkAt S pos ∧ ∀ q b, pos = q ++ [b] → ForkAt S q
  inner : ∀ i, F i → ForkAt S (name i) → ∃ n ch, get i = some n ∧ n.children = some ch ∧
    ∀ b, (ch b = none ↔ ∀ s, ¬ S (name i ++ b :: s)) ∧
      ∀ j, ch b = some j → F j ∧ name i ++ [b] <+: name j ∧ (name j = name i ++ [b] ∨ S (name j))

/-- The strings that two members start with. -/
def forkList (ss : List Bytes) : List Bytes := ((ss.flatMap List.inits).filter (fun p => decide (Forks ss p))).dedup

/-! ## Proof -/

theorem forkAt_cons {S : Bytes → Prop} {b : UInt8} {p : Bytes} :
    ForkAt (fun s => S (b :: s)) p ↔ ForkAt S (b :: p) := Iff.rfl

theorem Rep.shape {g path id S F v} (h : Rep H g path id S F v) :
    ∃ name, Shape S g F name ∧ (name id = [] ∨ S (name id)) := by
  classical
  induction h with
  | leaf path id S F dty suffix hg hS hF =>
    have hno : ∀ p, ¬ ForkAt S p := fun p ⟨s, t, hs, ht, hne⟩ =>
      hne (List.append_cancel_left (((hS _).1 hs).trans ((hS _).1 ht).symm))
    refine ⟨fun _ => suffix, ⟨fun i _ => Or.inl ((hS _).2 rfl), ?_, ?_, ?_, ?_⟩, Or.inr ((hS _).2 rfl)⟩
    · intro i j hi hj _; rw [(hF i).1 hi, (hF j).1 hj]
    · rintro p (hp | hp)
      · exact ⟨id, (hF _).2 rfl, ((hS _).1 hp).symm⟩
      · exact absurd hp (hno p)
    · intro i hi _
      rw [(hF i).1 hi]
      exact ⟨_, [], hg, rfl, rfl, hno _, by simp⟩
    · intro i _ hf; exact absurd hf (hno _)
  | node path id S F dty h ch FB VB hg hnil hno hrec hF hid hdisj h2 hclean hdirty ih =>
    have ih' : ∀ b, ∃ name, ∀ c, ch b = some c →
        Shape (fun s => S (b :: s)) g (FB b) name ∧ (name c = [] ∨ S (b :: name c)) := by
      intro b
      cases hb : ch b with
      | none => exact ⟨fun _ => [], by simp⟩
      | some c =>
        obtain ⟨name, h⟩ := ih b c hb
        exact ⟨name, fun c' e => by injection e with e; subst e; exact h⟩
    choose nm hnm using ih'
    let name : Nat → Bytes := fun i =>
      if hi : ∃ b c, ch b = some c ∧ FB b i then hi.choose :: nm hi.choose i else []
    have hroot : name id = [] := by
      simp only [name]; rw [dif_neg]
      rintro ⟨b, c, hb, hi⟩; exact hid b c hb hi
    have hchild : ∀ b c i, ch b = some c → FB b i → name i = b :: nm b i := by
      intro b c i hb hi
      have hex : ∃ b c, ch b = some c ∧ FB b i := ⟨b, c, hb, hi⟩
      obtain ⟨c', hb', hi'⟩ := hex.choose_spec
      have : b = hex.choose := hdisj _ _ _ _ i hb hb' hi hi'
      simp only [name]; rw [dif_pos hex, ← this]
    have hfroot : ForkAt S [] := by
      obtain ⟨s, t, hs, ht, hne⟩ := h2; exact ⟨s, t, hs, ht, hne⟩
    have hFid : F id := (hF id).2 (Or.inl rfl)
    have hFc : ∀ b c i, ch b = some c → FB b i → F i := fun b c i hb hi => (hF i).2 (Or.inr ⟨b, c, hb, hi⟩)
    refine ⟨name, ⟨?_, ?_, ?_, ?_, ?_⟩, Or.inl hroot⟩
    · intro i hi
      rcases (hF i).1 hi with rfl | ⟨b, c, hb, hi⟩
      · right; rw [hroot]; exact hfroot
      · rw [hchild b c i hb hi]; exact (hnm b c hb).1.named i hi
    · intro i j hi hj e
      rcases (hF i).1 hi with rfl | ⟨b, c, hb, hi⟩
      · rcases (hF j).1 hj with rfl | ⟨b', c', hb', hj⟩
        · rfl
        · rw [hroot, hchild b' c' j hb' hj] at e; cases e
      · rcases (hF j).1 hj with rfl | ⟨b', c', hb', hj⟩
        · rw [hroot, hchild b c i hb hi] at e; cases e
        · rw [hchild b c i hb hi, hchild b' c' j hb' hj] at e
          injection e with e1 e2
          subst e1
          exact (hnm b c hb).1.inj i j hi hj e2
    · intro p hp
      cases p with
      | nil => exact ⟨id, hFid, hroot⟩
      | cons b p =>
        cases hb : ch b with
        | none =>
          exfalso
          rcases hp with hp | ⟨s, _, hs, _⟩
          · exact hno b hb _ hp
          · exact hno b hb _ hs
        | some c =>
          obtain ⟨i, hi, e⟩ := (hnm b c hb).1.surj p hp
          exact ⟨i, hFc b c i hb hi, by rw [hchild b c i hb hi, e]⟩
    · intro i hi hs
      rcases (hF i).1 hi with rfl | ⟨b, c, hb, hi⟩
      · rw [hroot] at hs; exact absurd hs hnil
      · rw [hchild b c i hb hi] at hs ⊢
        obtain ⟨n, pos, hn, hch, hpos, hnf, hq⟩ := (hnm b c hb).1.leaf i hi hs
        refine ⟨n, b :: pos, hn, hch, by rw [hpos]; rfl, hnf, ?_⟩
        intro q x e
        cases q with
        | nil => exact hfroot
        | cons y q => injection e with e1 e2; subst e1; exact hq q x e2
    · intro i hi hs
      rcases (hF i).1 hi with rfl | ⟨b, c, hb, hi⟩
      · rw [hroot]
        refine ⟨_, ch, hg, rfl, fun b => ⟨⟨fun e s => hno b e s, ?_⟩, ?_⟩⟩
        · intro hall
          cases hb : ch b with
          | none => rfl
          | some c => obtain ⟨s, hs⟩ := (hrec b c hb).nonempty; exact absurd hs (hall s)
        · intro j hj
          have hFj := (hrec b j hj).mem_root
          have e := hchild b j j hj hFj
          refine ⟨hFc b j j hj hFj, ?_, ?_⟩
          · rw [e]; exact List.prefix_append [b] _
          · rw [e]
            rcases (hnm b j hj).2 with h0 | h0
            · left; rw [h0]; rfl
            · right; exact h0
      · rw [hchild b c i hb hi] at hs ⊢
        obtain ⟨n, ch', hn, hch', hb'⟩ := (hnm b c hb).1.inner i hi hs
        refine ⟨n, ch', hn, hch', fun x => ⟨(hb' x).1, fun j hj => ?_⟩⟩
        obtain ⟨h1, h2, h3⟩ := (hb' x).2 j hj
        rw [hchild b c j hb h1]
        refine ⟨hFc b c j hb h1, ?_, ?_⟩
        · exact List.cons_prefix_cons.2 ⟨rfl, h2⟩
        · rcases h3 with h3 | h3
          · left; rw [h3]; rfl
          · right; exact h3

theorem AnyInv.endAny : ∀ (ops : List TrieOp) {t u : Trie} {ss : List Bytes} {len : Nat}, AnyInv H t ss len →
    endAny H t ops = some u → ∃ m len', anyMembers H ss len ops = some m ∧ AnyInv H u m len'
  | [], _, _, ss, len, h, e => by injection e with e; subst e; exact ⟨ss, len, rfl, h⟩
  | op :: ops, t, u, ss, len, h, e => by
    have step : match anyAnswer H ss len op with
        | .ok o => ∃ t', callOk H t op = .ok (o, t') ∧ AnyInv H t' (specStep ss op) (anyLen ss len op)
        | .err e => callOk H t op = .err e
        | .panic => callOk H t op = .panic := by
      cases op with
      | add d =>
        have := h.add d
        revert this
        cases anyAnswer H ss len (.add d) with
        | ok o => exact id
        | err x => exact False.elim
        | panic => exact id
      | delete d => exact h.delete d
      | rootHash => exact h.rootHash
    simp only [Props.endAny] at e
    simp only [anyMembers]
    cases ea : anyAnswer H ss len op with
    | ok o =>
      rw [ea] at step
      obtain ⟨t', hc, hi⟩ := step
      rw [hc] at e
      exact hi.endAny ops e
    | err x =>
      rw [ea] at step
      rw [show callOk H t op = .err x from step] at e
      exact h.endAny ops e
    | panic =>
      rw [ea] at step
      rw [show callOk H t op = .panic from step] at e
      cases e

theorem forks_iff_forkAt {ss : List Bytes} {p : Bytes} : Forks ss p ↔ ForkAt (fun s => s ∈ ss) p := by
  constructor
  · exact fork_of_forks
  · rintro ⟨s, t, hs, ht, hne⟩
    exact ⟨_, hs, _, ht, fun e => hne (List.append_cancel_left e), List.prefix_append _ _, List.prefix_append _ _⟩

theorem mem_forkList {ss : List Bytes} {p : Bytes} : p ∈ forkList ss ↔ Forks ss p := by
  simp only [forkList, List.mem_dedup, List.mem_filter, decide_eq_true_eq]
  constructor
  · exact fun h => h.2
  · intro h
    obtain ⟨s, hs, _, _, _, hp, _⟩ := id h
    exact ⟨List.mem_flatMap.2 ⟨s, hs, List.mem_inits _ _ |>.2 hp⟩, h⟩

theorem nodup_members : ∀ (ops : List TrieOp) (ss : List Bytes) (len : Nat) (m : List Bytes), ss.Nodup →
    anyMembers H ss len ops = some m → m.Nodup
  | [], _, _, _, h, e => by injection e with e; subst e; exact h
  | op :: ops, ss, len, m, h, e => by
    simp only [anyMembers] at e
    have hstep : (specStep ss op).Nodup := by
      cases op with
      | add d =>
        simp only [specStep]
        split
        · exact h
        · rename_i hd; exact List.nodup_cons.2 ⟨hd, h⟩
      | delete d => exact h.filter _
      | rootHash => exact h
    cases ea : anyAnswer H ss len op with
    | ok o => rw [ea] at e; exact nodup_members ops _ _ m hstep e
    | err x => rw [ea] at e; exact nodup_members ops _ _ m h e
    | panic => rw [ea] at e; cases e

/-- What the storage holds under an identifier, read as a node. -/
def storedNode (t : Trie) (i : Nat) : Option Node := (t.cache.storage i).bind deserialize

/-- **C142**: at the end of every history that did not crash, whatever its order and whatever the lengths of its elements,
the storage holds one node for each member of the set and one for each string that two members start with, each with the
content that the set prescribes; nothing else is stored. Only the identifiers may depend on the history. -/
theorem C142_shape (H : Bytes → Bytes) (ops : List TrieOp) {t : Trie} (h : endAny H Trie.new ops = some t) :
    ∃ m name, anyMembers H [] 0 ops = some m ∧
      Shape (fun s => s ∈ m) (storedNode t) (fun i => t.cache.storage i ≠ none) name ∧
      ∀ r, t.root = some r → t.cache.storage r ≠ none ∧ (name r = [] ∨ name r ∈ m) := by
  obtain ⟨m, len, hm, hw, hrep⟩ := (AnyInv.new (H := H) 0).endAny ops h
  have hsync : ∀ i, t.cache.storage i ≠ none ↔ t.cache.cache i ≠ none := by
    intro i; rw [hw.sync i]; cases t.cache.cache i <;> simp
  refine ⟨m, ?_⟩
  cases hroot : t.root with
  | none =>
    rw [hroot] at hrep
    obtain ⟨rfl, hnone⟩ := hrep
    have hno : ∀ i, ¬ t.cache.storage i ≠ none := fun i hi => (hsync i).1 hi (hnone i)
    refine ⟨fun _ => [], hm, ⟨?_, ?_, ?_, ?_, ?_⟩, by simp⟩
    · intro i hi; exact absurd hi (hno i)
    · intro i j hi; exact absurd hi (hno i)
    · rintro p (hp | ⟨s, _, hs, _⟩)
      · cases hp
      · cases hs
    · intro i hi; exact absurd hi (hno i)
    · intro i hi; exact absurd hi (hno i)
  | some id =>
    rw [hroot] at hrep
    obtain ⟨_, F, v, hr, hF⟩ := hrep
    obtain ⟨name, hs, hn⟩ := Rep.shape hr
    have hFi : ∀ i, t.cache.storage i ≠ none ↔ F i := by
      intro i
      refine ⟨fun hi => hF i ((hsync i).1 hi), fun hi => (hsync i).2 ?_⟩
      obtain ⟨n, hn⟩ := hr.some_of_mem i hi
      rw [hn]; simp
    have hget : ∀ i n, t.cache.cache i = some n → storedNode t i = some { n with dirty := false } := by
      intro i n hi
      rw [storedNode, hw.sync i, hi]
      exact deserialize_serialize n
    refine ⟨name, hm, ⟨?_, ?_, ?_, ?_, ?_⟩, ?_⟩
    · exact fun i hi => hs.named i ((hFi i).1 hi)
    · exact fun i j hi hj => hs.inj i j ((hFi i).1 hi) ((hFi j).1 hj)
    · intro p hp
      obtain ⟨i, hi, e⟩ := hs.surj p hp
      exact ⟨i, (hFi i).2 hi, e⟩
    · intro i hi hp
      obtain ⟨n, pos, h1, h2, h3⟩ := hs.leaf i ((hFi i).1 hi) hp
      exact ⟨_, pos, hget i n h1, h2, h3⟩
    · intro i hi hp
      obtain ⟨n, ch, h1, h2, h3⟩ := hs.inner i ((hFi i).1 hi) hp
      refine ⟨_, ch, hget i n h1, h2, fun b => ⟨(h3 b).1, fun j hj => ?_⟩⟩
      obtain ⟨a, b⟩ := (h3 b).2 j hj
      exact ⟨(hFi j).2 a, b⟩
    · rintro r e
      injection e with e
      subst e
      exact ⟨(hFi _).2 hr.mem_root, hn⟩

/-- **C142**, counted: the number of stored nodes is the number of members plus the number of strings that two members
start with. It is the same after every history that leaves the same set, and at most the sum of the lengths of the members
plus their number. -/
theorem C142_count (H : Bytes → Bytes) (ops : List TrieOp) {t : Trie} (h : endAny H Trie.new ops = some t) :
    ∃ (m : List Bytes) (ids : List Nat), anyMembers H [] 0 ops = some m ∧ ids.Nodup ∧ (∀ i, i ∈ ids ↔ t.cache.storage i ≠ none) ∧
      ids.length = m.length + (forkList m).length ∧
      ids.length ≤ (m.map (fun s => s.length + 1)).sum := by
  classical
  obtain ⟨m, name, hm, hs, _⟩ := C142_shape H ops h
  have hpf : PrefixFree m := prefixFree_members ops [] 0 m (fun a ha => by cases ha) hm
  have hnd := nodup_members ops [] 0 m List.nodup_nil hm
  have hdisj : ∀ p ∈ m, p ∉ forkList m := by
    intro p hp hf
    obtain ⟨s, t, hs, ht, hne⟩ := forks_iff_forkAt.1 (mem_forkList.1 hf)
    have e1 := hpf p hp _ hs (List.prefix_append _ _)
    have e2 := hpf p hp _ ht (List.prefix_append _ _)
    exact hne (List.append_cancel_left (e1.symm.trans e2))
  have hall : ∀ p, p ∈ m ++ forkList m ↔ (p ∈ m ∨ ForkAt (fun s => s ∈ m) p) := by
    intro p; rw [List.mem_append, mem_forkList, forks_iff_forkAt]
  have hndall : (m ++ forkList m).Nodup :=
    List.nodup_append'.2 ⟨hnd, List.nodup_dedup _, fun p hp hf => hdisj p hp hf⟩
  -- the identifier of a name
  have hex : ∀ p, p ∈ m ++ forkList m → ∃ i, t.cache.storage i ≠ none ∧ name i = p :=
    fun p hp => hs.surj p ((hall p).1 hp)
  choose! idOf hid using hex
  refine ⟨m, (m ++ forkList m).map idOf, hm, ?_, ?_, by simp, ?_⟩
  · refine List.Nodup.map_on ?_ hndall
    intro x hx y hy e
    rw [← (hid x hx).2, ← (hid y hy).2, e]
  · intro i
    constructor
    · intro hi
      obtain ⟨p, hp, rfl⟩ := List.mem_map.1 hi
      exact (hid p hp).1
    · intro hi
      have hp := (hall _).2 (hs.named i hi)
      exact List.mem_map.2 ⟨name i, hp, hs.inj _ _ (hid _ hp).1 hi (hid _ hp).2⟩
  · rw [List.length_map]
    have hsub : (m ++ forkList m) ⊆ m.flatMap List.inits := by
      intro p hp
      rcases List.mem_append.1 hp with hp | hp
      · exact List.mem_flatMap.2 ⟨p, hp, (List.mem_inits _ _).2 (List.prefix_refl _)⟩
      · have := List.mem_filter.1 (List.mem_dedup.1 hp)
        exact this.1
    have := (List.Nodup.subperm hndall hsub).length_le
    simpa [List.length_flatMap] using this

/-- Two histories that leave the same members leave the same number of nodes. -/
theorem C142_history_independent (H : Bytes → Bytes) (ops1 ops2 : List TrieOp) {t1 t2 : Trie}
    (h1 : endAny H Trie.new ops1 = some t1) (h2 : endAny H Trie.new ops2 = some t2) {m1 m2 : List Bytes}
    (e1 : anyMembers H [] 0 ops1 = some m1) (e2 : anyMembers H [] 0 ops2 = some m2) (he : ∀ s, s ∈ m1 ↔ s ∈ m2)
    {ids1 ids2 : List Nat} (n1 : ids1.Nodup) (n2 : ids2.Nodup)
    (i1 : ∀ i, i ∈ ids1 ↔ t1.cache.storage i ≠ none) (i2 : ∀ i, i ∈ ids2 ↔ t2.cache.storage i ≠ none) :
    ids1.length = ids2.length := by
  obtain ⟨m, ids, em, hn, hi, hl, _⟩ := C142_count H ops1 h1
  rw [e1] at em; injection em with em; subst em
  obtain ⟨m, ids', em, hn', hi', hl', _⟩ := C142_count H ops2 h2
  rw [e2] at em; injection em with em; subst em
  have p1 : ids1.length = ids.length :=
    ((List.perm_ext_iff_of_nodup n1 hn).2 (fun i => (i1 i).trans (hi i).symm)).length_eq
  have p2 : ids2.length = ids'.length :=
    ((List.perm_ext_iff_of_nodup n2 hn').2 (fun i => (i2 i).trans (hi' i).symm)).length_eq
  have d1 := nodup_members ops1 [] 0 _ List.nodup_nil e1
  have d2 := nodup_members ops2 [] 0 _ List.nodup_nil e2
  have pm := ((List.perm_ext_iff_of_nodup d1 d2).2 he).length_eq
  have pf : (forkList m1).length = (forkList m2).length := by
    refine ((List.perm_ext_iff_of_nodup (List.nodup_dedup _) (List.nodup_dedup _)).2 fun p => ?_).length_eq
    change p ∈ forkList m1 ↔ p ∈ forkList m2
    rw [mem_forkList, mem_forkList, forks_iff_forkAt, forks_iff_forkAt]
    simp only [ForkAt, he]
  omega

/-- Three elements, two of which share two bytes: five nodes. -/
example : (endAny toyHash Trie.new [.add [1, 2, 3], .add [1, 2, 4], .rootHash, .add [9, 9, 9], .delete [7, 7, 7]]).isSome ∧
    anyMembers toyHash [] 0 [.add [1, 2, 3], .add [1, 2, 4], .rootHash, .add [9, 9, 9], .delete [7, 7, 7]] =
      some [[9, 9, 9], [1, 2, 4], [1, 2, 3]] ∧
    (forkList [[9, 9, 9], [1, 2, 4], [1, 2, 3]]).length = 3 := by
  refine ⟨by decide +kernel, rfl, by decide +kernel⟩

/-- A case of `C142_shape` and `C142_count`: three strings with two forks. -/
example (t : Trie) (h : endAny toyHash Trie.new [.add [1, 2, 3], .add [1, 2, 4], .add [9, 9, 9]] = some t) :
    ∃ ids : List Nat, (∀ i, i ∈ ids ↔ t.cache.storage i ≠ none) ∧ ids.length = 3 + (forkList [[9, 9, 9], [1, 2, 4], [1, 2, 3]]).length ∧
      ∃ name, Shape (fun s => s ∈ [[9, 9, 9], [1, 2, 4], [1, 2, 3]]) (storedNode t) (fun i => t.cache.storage i ≠ none) name := by
  have hm : anyMembers toyHash [] 0 [.add [1, 2, 3], .add [1, 2, 4], .add [9, 9, 9]] = some [[9, 9, 9], [1, 2, 4], [1, 2, 3]] := rfl
  obtain ⟨m, ids, h1, _, h3, h4, _⟩ := C142_count toyHash _ h
  obtain ⟨m', name, h1', h2', _⟩ := C142_shape toyHash _ h
  cases hm.symm.trans h1
  cases hm.symm.trans h1'
  exact ⟨ids, h3, h4, name, h2'⟩

end Verif.Props
