import Verif.Props.Trie
/-!
# C109: a trie on a storage that already has nodes
-/

namespace Verif.Props
open Verif Verif.Trie

/-- `c'` has the nodes of `c` in memory, and whatever `c` has stored is in memory and can be read from the storage of
`c'` (which may hold older contents, and more). -/
structure Ext (c c' : Cache) : Prop where
  cache : c'.cache = c.cache
  next : c'.next = c.next
  storage : ∀ id d, c.storage id = some d → (∃ n, c.cache id = some n) ∧
    ∃ d' m, c'.storage id = some d' ∧ deserialize d' = some m

theorem Ext.allocate {c c' : Cache} (h : Ext c c') : c'.allocate.1 = c.allocate.1 ∧ Ext c.allocate.2 c'.allocate.2 := by
  refine ⟨h.next, by simp only [Cache.allocate]; rw [h.cache, h.next], by simp only [Cache.allocate]; rw [h.next],
    fun id d hd => ⟨?_, (h.storage id d hd).2⟩⟩
  simp only [Cache.allocate, put]
  split
  · exact ⟨_, rfl⟩
  · exact (h.storage id d hd).1

theorem Ext.setNode {c c' : Cache} (h : Ext c c') (id : Nat) (n : Node) : Ext (c.setNode id n) (c'.setNode id n) := by
  refine ⟨by simp only [Cache.setNode]; rw [h.cache], h.next, fun i d hi => ?_⟩
  simp only [Cache.setNode, storeNode, put] at hi ⊢
  by_cases e : i = id
  · have : n.serialize.isEmpty = false := by simpa using serialize_ne_nil n
    simp only [if_pos e, this]
    exact ⟨⟨n, rfl⟩, n.serialize, _, rfl, deserialize_serialize n⟩
  · rw [if_neg e] at hi
    simp only [if_neg e]
    exact h.storage i d hi

theorem Ext.deleteNode {c c' : Cache} (h : Ext c c') (id : Nat) : Ext (c.deleteNode id) (c'.deleteNode id) := by
  refine ⟨by simp only [Cache.deleteNode]; rw [h.cache], h.next, fun i d hi => ?_⟩
  simp only [Cache.deleteNode, storeNode, put] at hi ⊢
  by_cases e : i = id
  · simp [e] at hi
  · rw [if_neg e] at hi
    simp only [if_neg e]
    exact h.storage i d hi

/-- Two computations from related states: if the first succeeds, so does the second, with the same answer. -/
def SimRes {ε α : Type} (a b : Res ε (α × Cache)) : Prop :=
  ∀ x c1, a = .ok (x, c1) → ∃ c1', b = .ok (x, c1') ∧ Ext c1 c1'

theorem SimRes.ok {ε α : Type} {c c' : Cache} (h : Ext c c') (x : α) :
    SimRes (ε := ε) (.ok (x, c)) (.ok (x, c')) := by
  intro y c1 e; injection e with e; injection e with e1 e2; subst e1; subst e2; exact ⟨c', rfl, h⟩

theorem SimRes.bind {ε α β : Type} {a b : Res ε (α × Cache)} {f g : α × Cache → Res ε (β × Cache)} (h : SimRes a b)
    (hf : ∀ x c1 c1', Ext c1 c1' → SimRes (f (x, c1)) (g (x, c1'))) : SimRes (a >>= f) (b >>= g) := by
  intro y c2 e
  obtain ⟨⟨x, c1⟩, e1, e2⟩ := Res.bind_eq_ok.1 e
  obtain ⟨c1', e1', h1⟩ := h x c1 e1
  obtain ⟨c2', e2', h2⟩ := hf x c1 c1' h1 y c2 e2
  exact ⟨c2', by rw [e1', Res.ok_bind]; exact e2', h2⟩

theorem SimRes.panic {ε α : Type} (b : Res ε (α × Cache)) : SimRes .panic b := by
  intro x c e; cases e

theorem SimRes.err {ε α : Type} (e : ε) (b : Res ε (α × Cache)) : SimRes (.err e) b := by
  intro x c h; cases h

theorem getNode_sim {c c' : Cache} (h : Ext c c') (id : Nat) : SimRes (c.getNode id) (c'.getNode id) := by
  intro n c1 e
  unfold Cache.getNode at e
  split at e
  · cases e
  rename_i data hs
  obtain ⟨⟨m, hm⟩, d', m', hs', hd'⟩ := h.storage id data hs
  split at e
  · cases e
  simp only [hm] at e
  unfold Cache.getNode
  simp only [hs', hd', h.cache, hm]
  exact SimRes.ok h m n c1 e

theorem find_sim : ∀ (d : Bytes) (n : Node) {c c' : Cache}, Ext c c' → SimRes (find d n c) (find d n c')
  | d, n, c, c', h => by
    unfold find
    split
    · exact SimRes.ok h _
    · rename_i ch hch
      cases d with
      | nil => exact SimRes.panic _
      | cons b rest =>
        simp only
        split
        · exact SimRes.ok h _
        · rename_i cid hb
          exact (getNode_sim h cid).bind fun child c1 c1' h1 => find_sim rest child h1

theorem buildChain_sim (path d : Bytes) : ∀ (n id : Nat) {c c' : Cache}, Ext c c' →
    SimRes (buildChain path d n id c) (buildChain path d n id c')
  | 0, id, c, c', h => SimRes.ok h id
  | i + 1, id, c, c', h => by
    unfold buildChain
    split
    · exact SimRes.panic _
    · rename_i b hb
      obtain ⟨e, h1⟩ := h.allocate
      simp only
      rw [e]
      exact buildChain_sim path d i _ (h1.setNode _ _)

theorem addLeaf_sim (n : Node) (d path : Bytes) {c c' : Cache} (h : Ext c c') :
    SimRes (addLeaf n d path c) (addLeaf n d path c') := by
  unfold addLeaf
  cases hd : (diffIndex n.hash d : Res CacheError Nat) with
  | panic => exact SimRes.panic _
  | err e => exact SimRes.err _ _
  | ok i =>
    simp only [Res.ok_bind]
    obtain ⟨e1, h1⟩ := h.allocate
    rw [e1]
    have h2 := h1.setNode c.allocate.1 ⟨false, n.hash.drop (i + 1), none⟩
    obtain ⟨e3, h3⟩ := h2.allocate
    rw [e3]
    have h4 := h3.setNode ((c.allocate.2).setNode c.allocate.1 ⟨false, n.hash.drop (i + 1), none⟩).allocate.1
      ⟨false, d.drop (i + 1), none⟩
    obtain ⟨e5, h5⟩ := h4.allocate
    rw [e5]
    split
    · exact buildChain_sim path d i _ (h5.setNode _ _)
    · exact SimRes.panic _

theorem add_sim : ∀ (d : Bytes) (n : Node) (path : Bytes) {c c' : Cache}, Ext c c' →
    SimRes (Verif.Trie.add d n path c) (Verif.Trie.add d n path c')
  | d, n, path, c, c', h => by
    unfold Verif.Trie.add
    split
    · exact addLeaf_sim n d path h
    · rename_i ch hch
      cases d with
      | nil => exact SimRes.panic _
      | cons b rest =>
        simp only
        split
        · obtain ⟨e1, h1⟩ := h.allocate
          rw [e1]
          have h2 := h1.setNode c.allocate.1 ⟨false, rest, none⟩
          obtain ⟨e3, h3⟩ := h2.allocate
          rw [e3]
          exact SimRes.ok (h3.setNode _ _) _
        · rename_i cid hb
          refine (getNode_sim h cid).bind fun child c1 c1' h1 => ?_
          refine (add_sim rest child (path ++ [b]) h1).bind fun up c2 c2' h2 => ?_
          exact SimRes.ok (h2.setNode _ _) _

theorem removeFinish_sim (ch : Children) (nid : Nat) (path : Bytes) {c c' : Cache} (h : Ext c c') :
    SimRes (removeFinish ch nid path c) (removeFinish ch nid path c') := by
  unfold removeFinish
  split
  · refine (getNode_sim h _).bind fun child c1 c1' h1 => ?_
    simp only
    split
    · exact SimRes.ok ((h1.deleteNode _).setNode _ _) _
    · exact SimRes.ok (h1.setNode _ _) _
  · exact SimRes.ok (h.setNode _ _) _

theorem remove_sim : ∀ (d : Bytes) (n : Node) (path : Bytes) {c c' : Cache}, Ext c c' →
    SimRes (remove d n path c) (remove d n path c')
  | [], n, path, c, c', h => by unfold remove; exact SimRes.panic _
  | b :: rest, n, path, c, c', h => by
    unfold remove
    split
    · exact SimRes.panic _
    · split
      · exact SimRes.panic _
      · rename_i nid hb
        refine (getNode_sim h nid).bind fun node c1 c1' h1 => ?_
        simp only
        split
        · exact removeFinish_sim _ _ _ h1
        · refine (remove_sim rest node (path ++ [b]) h1).bind fun up c2 c2' h2 => ?_
          exact removeFinish_sim _ _ _ h2

theorem calcChildren_sim (rec : Node → Cache → Res CacheError (Node × Cache))
    (hrec : ∀ n c c', Ext c c' → SimRes (rec n c) (rec n c')) : ∀ (l : List (UInt8 × Nat)) {c c' : Cache}, Ext c c' →
    ∀ c1, calcChildren rec l c = .ok c1 → ∃ c1', calcChildren rec l c' = .ok c1' ∧ Ext c1 c1'
  | [], c, c', h, c1, e => by injection e with e; subst e; exact ⟨c', rfl, h⟩
  | (i, id) :: l, c, c', h, c1, e => by
    unfold calcChildren at e ⊢
    obtain ⟨⟨child, c2⟩, e1, e2⟩ := Res.bind_eq_ok.1 e
    obtain ⟨c2', e1', h2⟩ := getNode_sim h id child c2 e1
    rw [e1', Res.ok_bind]
    simp only at e2 ⊢
    split at e2
    · rename_i hd
      rw [if_pos hd]
      obtain ⟨⟨child', c3⟩, e3, e4⟩ := Res.bind_eq_ok.1 e2
      obtain ⟨c3', e3', h3⟩ := hrec child c2 c2' h2 child' c3 e3
      rw [e3', Res.ok_bind]
      exact calcChildren_sim rec hrec l (h3.setNode _ _) c1 e4
    · rename_i hd
      rw [if_neg hd]
      exact calcChildren_sim rec hrec l h2 c1 e2

theorem accumulate_sim : ∀ (l : List (UInt8 × Nat)) {c c' : Cache}, Ext c c' →
    SimRes (accumulate l c) (accumulate l c')
  | [], c, c', h => SimRes.ok h _
  | (i, id) :: l, c, c', h => by
    unfold accumulate
    refine (getNode_sim h id).bind fun child c1 c1' h1 => ?_
    refine (accumulate_sim l h1).bind fun more c2 c2' h2 => ?_
    exact SimRes.ok h2 _

theorem calculateHash_sim (H : Bytes → Bytes) : ∀ (fuel : Nat) (n : Node) (c c' : Cache), Ext c c' →
    SimRes (calculateHash H fuel n c) (calculateHash H fuel n c')
  | 0, n, c, c', h => SimRes.panic _
  | fuel + 1, n, c, c', h => by
    unfold calculateHash
    split
    · exact SimRes.ok h _
    · rename_i ch hch
      split
      · exact SimRes.ok h _
      · intro x c2 e
        obtain ⟨c1, e1, e2⟩ := Res.bind_eq_ok.1 e
        obtain ⟨c1', e1', h1⟩ := calcChildren_sim _ (calculateHash_sim H fuel) _ h c1 e1
        rw [e1', Res.ok_bind]
        refine SimRes.bind (accumulate_sim (childList ch) h1) ?_ x c2 e2
        exact fun acc c3 c3' h3 => SimRes.ok h3 _

theorem liftE_sim {α : Type} {a b : Res CacheError (α × Cache)} (h : SimRes a b) : SimRes (liftE a) (liftE b) := by
  intro x c e
  cases a with
  | ok p =>
    simp only [liftE] at e
    injection e with e; subst e
    obtain ⟨c', e', hc⟩ := h x c rfl
    exact ⟨c', by rw [e']; rfl, hc⟩
  | err _ => cases e
  | panic => cases e

/-- The same for tries. -/
structure TrieExt (t t' : Trie) : Prop where
  root : t'.root = t.root
  cache : Ext t.cache t'.cache
  len : t'.elementLength = t.elementLength

theorem add_trie_sim {t t' : Trie} (h : TrieExt t t') (d : Bytes) (b : Bool) (t1 : Trie) (e : t.add d = .ok (b, t1)) :
    ∃ t1', t'.add d = .ok (b, t1') ∧ TrieExt t1 t1' := by
  obtain ⟨root, c, el⟩ := t
  obtain ⟨root', c', el'⟩ := t'
  obtain ⟨h1, h2, h3⟩ := h
  simp only at h1 h2 h3
  subst h1; subst h3
  unfold Verif.Trie.Trie.add at e ⊢
  simp only at e ⊢
  cases root' with
  | none =>
    simp only at e ⊢
    obtain ⟨q1, q2⟩ := h2.allocate
    injection e with e; injection e with e1 e2
    subst e1; subst e2
    exact ⟨_, rfl, by simp only; rw [q1], by simp only; rw [q1]; exact q2.setNode _ _, rfl⟩
  | some rid =>
    simp only at e ⊢
    obtain ⟨⟨pn, c2⟩, e1, e2⟩ := Res.bind_eq_ok.1 e
    obtain ⟨c2', e1', x2⟩ := liftE_sim (getNode_sim h2 rid) pn c2 e1
    rw [e1', Res.ok_bind]
    simp only at e2 ⊢
    obtain ⟨⟨fd, c3⟩, e3, e4⟩ := Res.bind_eq_ok.1 e2
    obtain ⟨c3', e3', x3⟩ := liftE_sim (find_sim d pn x2) fd c3 e3
    rw [e3', Res.ok_bind]
    simp only at e4 ⊢
    cases fd with
    | true =>
      simp only [if_true] at e4 ⊢
      injection e4 with e4; injection e4 with e5 e6; subst e5; subst e6
      exact ⟨_, rfl, rfl, x3, rfl⟩
    | false =>
      simp only [Bool.false_eq_true, if_false] at e4 ⊢
      obtain ⟨⟨nr, c4⟩, e5, e6⟩ := Res.bind_eq_ok.1 e4
      obtain ⟨c4', e5', x4⟩ := liftE_sim (add_sim d pn [] x3) nr c4 e5
      rw [e5', Res.ok_bind]
      injection e6 with e6; injection e6 with e7 e8; subst e7; subst e8
      exact ⟨_, rfl, rfl, x4.deleteNode rid, rfl⟩

theorem delete_trie_sim {t t' : Trie} (h : TrieExt t t') (d : Bytes) (b : Bool) (t1 : Trie)
    (e : t.delete d = .ok (b, t1)) : ∃ t1', t'.delete d = .ok (b, t1') ∧ TrieExt t1 t1' := by
  obtain ⟨root, c, el⟩ := t
  obtain ⟨root', c', el'⟩ := t'
  obtain ⟨h1, h2, h3⟩ := h
  simp only at h1 h2 h3
  subst h1; subst h3
  unfold Verif.Trie.Trie.delete at e ⊢
  simp only at e ⊢
  cases root' with
  | none =>
    simp only at e ⊢
    injection e with e; injection e with e1 e2
    subst e1; subst e2
    exact ⟨_, rfl, rfl, h2, rfl⟩
  | some rid =>
    simp only at e ⊢
    split at e
    · cases e
    rename_i hl
    rw [if_neg hl]
    obtain ⟨⟨pn, c2⟩, e1, e2⟩ := Res.bind_eq_ok.1 e
    obtain ⟨c2', e1', x2⟩ := liftE_sim (getNode_sim h2 rid) pn c2 e1
    rw [e1', Res.ok_bind]
    simp only at e2 ⊢
    obtain ⟨⟨fd, c3⟩, e3, e4⟩ := Res.bind_eq_ok.1 e2
    obtain ⟨c3', e3', x3⟩ := liftE_sim (find_sim d pn x2) fd c3 e3
    rw [e3', Res.ok_bind]
    simp only at e4 ⊢
    cases fd with
    | false =>
      simp only [Bool.not_false, if_true] at e4 ⊢
      injection e4 with e4; injection e4 with e5 e6; subst e5; subst e6
      exact ⟨_, rfl, rfl, x3, rfl⟩
    | true =>
      simp only [Bool.not_true, Bool.false_eq_true, if_false] at e4 ⊢
      split at e4
      · rename_i hlf
        rw [if_pos hlf]
        injection e4 with e4; injection e4 with e5 e6; subst e5; subst e6
        exact ⟨_, rfl, rfl, x3.deleteNode rid, rfl⟩
      · rename_i hlf
        rw [if_neg hlf]
        obtain ⟨⟨nr, c4⟩, e5, e6⟩ := Res.bind_eq_ok.1 e4
        obtain ⟨c4', e5', x4⟩ := liftE_sim (remove_sim d pn [] x3) nr c4 e5
        rw [e5', Res.ok_bind]
        injection e6 with e6; injection e6 with e7 e8; subst e7; subst e8
        exact ⟨_, rfl, rfl, x4.deleteNode rid, rfl⟩

theorem rootHash_trie_sim {H : Bytes → Bytes} {t t' : Trie} (h : TrieExt t t') (r : Bytes) (t1 : Trie)
    (e : t.rootHash H = .ok (r, t1)) : ∃ t1', t'.rootHash H = .ok (r, t1') ∧ TrieExt t1 t1' := by
  obtain ⟨root, c, el⟩ := t
  obtain ⟨root', c', el'⟩ := t'
  obtain ⟨h1, h2, h3⟩ := h
  simp only at h1 h2 h3
  subst h1; subst h3
  unfold Verif.Trie.Trie.rootHash at e ⊢
  simp only at e ⊢
  cases root' with
  | none =>
    simp only at e ⊢
    injection e with e; injection e with e1 e2
    subst e1; subst e2
    exact ⟨_, rfl, rfl, h2, rfl⟩
  | some rid =>
    simp only at e ⊢
    obtain ⟨⟨pn, c2⟩, e1, e2⟩ := Res.bind_eq_ok.1 e
    obtain ⟨c2', e1', x2⟩ := liftE_sim (getNode_sim h2 rid) pn c2 e1
    rw [e1', Res.ok_bind]
    simp only at e2 ⊢
    obtain ⟨⟨rn, c3⟩, e3, e4⟩ := Res.bind_eq_ok.1 e2
    obtain ⟨c3', e3', x3⟩ := liftE_sim (calculateHash_sim H _ pn c2 c2' x2) rn c3 e3
    rw [h2.next, e3', Res.ok_bind]
    simp only at e4 ⊢
    split at e4
    · rename_i hlf
      rw [if_pos hlf]
      injection e4 with e4; injection e4 with e5 e6; subst e5; subst e6
      exact ⟨_, rfl, rfl, x3.setNode rid rn, rfl⟩
    · rename_i hlf
      rw [if_neg hlf]
      injection e4 with e4; injection e4 with e5 e6; subst e5; subst e6
      exact ⟨_, rfl, rfl, x3.setNode rid rn, rfl⟩

theorem run_sim {H : Bytes → Bytes} : ∀ (ops : List TrieOp) {t t' : Trie}, TrieExt t t' → ∀ outs t1,
    runTrie H t ops = .ok (outs, t1) → ∃ t1', runTrie H t' ops = .ok (outs, t1') ∧ TrieExt t1 t1'
  | [], t, t', h, outs, t1, e => by
    injection e with e; injection e with e1 e2; subst e1; subst e2; exact ⟨t', rfl, h⟩
  | op :: ops, t, t', h, outs, t1, e => by
    cases op with
    | add d =>
      unfold runTrie at e ⊢
      obtain ⟨⟨b, t2⟩, e1, e2⟩ := Res.bind_eq_ok.1 e
      obtain ⟨t2', e1', x2⟩ := add_trie_sim h d b t2 e1
      rw [e1', Res.ok_bind]
      simp only at e2 ⊢
      obtain ⟨⟨os, t3⟩, e3, e4⟩ := Res.bind_eq_ok.1 e2
      obtain ⟨t3', e3', x3⟩ := run_sim ops x2 os t3 e3
      rw [e3', Res.ok_bind]
      injection e4 with e4; injection e4 with e5 e6; subst e5; subst e6
      exact ⟨t3', rfl, x3⟩
    | delete d =>
      unfold runTrie at e ⊢
      obtain ⟨⟨b, t2⟩, e1, e2⟩ := Res.bind_eq_ok.1 e
      obtain ⟨t2', e1', x2⟩ := delete_trie_sim h d b t2 e1
      rw [e1', Res.ok_bind]
      simp only at e2 ⊢
      obtain ⟨⟨os, t3⟩, e3, e4⟩ := Res.bind_eq_ok.1 e2
      obtain ⟨t3', e3', x3⟩ := run_sim ops x2 os t3 e3
      rw [e3', Res.ok_bind]
      injection e4 with e4; injection e4 with e5 e6; subst e5; subst e6
      exact ⟨t3', rfl, x3⟩
    | rootHash =>
      unfold runTrie at e ⊢
      obtain ⟨⟨b, t2⟩, e1, e2⟩ := Res.bind_eq_ok.1 e
      obtain ⟨t2', e1', x2⟩ := rootHash_trie_sim h b t2 e1
      rw [e1', Res.ok_bind]
      simp only at e2 ⊢
      obtain ⟨⟨os, t3⟩, e3, e4⟩ := Res.bind_eq_ok.1 e2
      obtain ⟨t3', e3', x3⟩ := run_sim ops x2 os t3 e3
      rw [e3', Res.ok_bind]
      injection e4 with e4; injection e4 with e5 e6; subst e5; subst e6
      exact ⟨t3', rfl, x3⟩

theorem newOn_ext (s : Nat → Option Bytes) : TrieExt Trie.new (Trie.newOn s) :=
  ⟨rfl, ⟨rfl, rfl, fun id d h => by simp [Trie.new, Cache.new] at h⟩, rfl⟩

/-- **C109**, violated: whatever a trie stored, opening its storage again gives a trie that answers like an empty one:
it finds none of the elements and its root hash is the one of the empty set. -/
theorem C109_reopened_is_empty (H : Bytes → Bytes) (ops : List TrieOp) (outs : List TrieOut) (t : Trie)
    (_h : runTrie H Trie.new ops = .ok (outs, t)) (d : Bytes) :
    (∃ t', (Trie.newOn t.cache.storage).delete d = .ok (false, t')) ∧
    (∃ t', (Trie.newOn t.cache.storage).rootHash H = .ok (List.replicate 32 0, t')) :=
  ⟨⟨_, rfl⟩, ⟨_, rfl⟩⟩

/-- The claim of C109 is false for every history and every element it left in the trie: the trie itself still has the
element, the one opened again on the same storage does not. -/
theorem C109_violated (H : Bytes → Bytes) (L : Nat) (hL : L < 2 ^ 32) (ops : List TrieOp) (h : OfLen L ops) (d : Bytes)
    (hd : d ∈ specSet [] ops) :
    ∃ outs t t1 t2, runTrie H Trie.new ops = .ok (outs, t) ∧ t.delete d = .ok (true, t1) ∧
      (Trie.newOn t.cache.storage).delete d = .ok (false, t2) := by
  obtain ⟨t, h1, h2⟩ := TrieInv.run (H := H) (L := L) hL ops Trie.new [] TrieInv.new h
  obtain ⟨t1, h3, _⟩ := h2.delete d (h2.len d hd)
  rw [decide_eq_true hd] at h3
  exact ⟨_, t, t1, _, h1, h3, rfl⟩

example : [1, 2] ∈ specSet [] [.add [1, 2], .add [1, 3], .delete [1, 3]] ∧
    OfLen 2 [.add [1, 2], .add [1, 3], .delete [1, 3]] := by
  refine ⟨by decide, ?_⟩
  simp [OfLen]

/-- **C109**, what holds: the nodes left in the storage do no harm. Every history over elements of one length runs on
any storage without error or crash, with the answers of a set that starts empty, root hashes included. -/
theorem C109_starts_empty_partial (H : Bytes → Bytes) (L : Nat) (hL : L < 2 ^ 32) (storage : Nat → Option Bytes)
    (ops : List TrieOp) (h : OfLen L ops) :
    ∃ t, runTrie H (Trie.newOn storage) ops = .ok (specOuts H [] ops, t) := by
  obtain ⟨t, h1, _⟩ := TrieInv.run (H := H) (L := L) hL ops Trie.new [] TrieInv.new h
  obtain ⟨t', h2, _⟩ := run_sim ops (newOn_ext storage) _ t h1
  exact ⟨t', h2⟩

/-- A case of `C109_starts_empty_partial`: a storage that holds something already. -/
example (H : Bytes → Bytes) (storage : Nat → Option Bytes) : ∃ t, runTrie H (Trie.newOn storage) [.add [1, 2], .delete [1, 2]] =
    .ok ([.flag true, .flag true], t) :=
  C109_starts_empty_partial H 2 (by decide) storage _ (by simp [OfLen])

end Verif.Props
