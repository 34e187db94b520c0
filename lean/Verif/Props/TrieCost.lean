import Verif.Props.TrieFault
import Verif.Lemmas.TrieCost
/-!
# C159, C160: how often the merkle trie asks its storage
-/

namespace Verif.Props
open Verif Verif.Trie

variable {H : Bytes → Bytes} {L : Nat}

/-! ## Counting the accesses of a call -/

/-- The number of calls of `load_node` and `store_node` during a call on a storage that works. -/
def accesses (H : Bytes → Bytes) (t : Trie) : TrieOp → Nat
  | .add d => match t.root with
    | none => (setNodeF t.cache.allocate.1 ⟨false, d, none⟩ healthy (t.cache.allocate.2, 0)).2.2
    | some id => (addBody d id healthy (t.cache, 0)).2.2
  | .delete d => match t.root with
    | none => 0
    | some id => if d.length ≠ t.elementLength then 0 else (deleteBody d id healthy (t.cache, 0)).2.2
  | .rootHash => match t.root with
    | none => 0
    | some id => (hashBody H t.cache.next id healthy (t.cache, 0)).2.2

theorem stop_same {α β : Type} (t : Trie) {m : FM α} (hm : Honest m) (k : α → FState → Res TrieError β × Trie) (fl : Nat → Bool)
    (h : ∀ i, i < (m healthy (t.cache, 0)).2.2 → fl i = false) :
    t.stop (m fl (t.cache, 0)) k = t.stop (m healthy (t.cache, 0)) k := by
  rw [hm.same fl (t.cache, 0) (fun i _ hi => h i hi)]

theorem stop_stops {α β : Type} (t : Trie) {m : FM α} (hm : Honest m) (k : α → FState → Res TrieError β × Trie) (fl : Nat → Bool)
    {i : Nat} (h : i < (m healthy (t.cache, 0)).2.2) (hf : fl i = true) :
    (t.stop (m fl (t.cache, 0)) k).1 = .err storageError := by
  have h1 := hm.stops fl (t.cache, 0) i (Nat.zero_le _) h hf
  cases hx : m fl (t.cache, 0) with
  | mk r s =>
    rw [hx] at h1
    simp only at h1
    subst h1
    rfl

theorem mapAnswer_err {α β : Type} (f : α → β) {x : Res TrieError α × Trie} {e : TrieError} (h : x.1 = .err e) :
    (mapAnswer f x).1 = .err e := by
  obtain ⟨r, t⟩ := x
  simp only at h
  subst h
  rfl

/-- **C159**: the count is right: a failure of any of the counted accesses is the outcome of the call, and failures of
further accesses go unnoticed, because there are none. -/
theorem C159_counted (H : Bytes → Bytes) (t : Trie) (op : TrieOp) (fl : Nat → Bool) :
    ((∀ k, k < accesses H t op → fl k = false) → callF H fl t op = callF H healthy t op) ∧
    (∀ k, k < accesses H t op → fl k = true → (callF H fl t op).1 = .err storageError ∨
      (callF H fl t op).1 = .panic ∧ t.root = none ∧ ∃ d, op = .add d) := by
  obtain ⟨root, c, el⟩ := t
  cases op with
  | add d =>
    cases root with
    | none =>
      refine ⟨fun h => ?_, fun k hk hf => ?_⟩
      · have h0 := h 0 (Nat.zero_lt_one)
        simp only [callF, Verif.Trie.Trie.addF, setNodeF, h0]
      · have hk : k < 1 := hk
        have : k = 0 := by omega
        subst this
        refine .inr ⟨?_, rfl, d, rfl⟩
        simp only [callF, Verif.Trie.Trie.addF, setNodeF, hf, if_true, mapAnswer]
    | some id =>
      refine ⟨fun h => ?_, fun k hk hf => .inl (mapAnswer_err _ ?_)⟩
      · exact congrArg (mapAnswer _) (stop_same ⟨some id, c, el⟩ (Honest.addBody d id) _ fl h)
      · exact stop_stops ⟨some id, c, el⟩ (Honest.addBody d id) _ fl hk hf
  | delete d =>
    cases root with
    | none => exact ⟨fun _ => rfl, fun k hk => absurd hk (Nat.not_lt_zero _)⟩
    | some id =>
      by_cases hl : d.length ≠ el
      · refine ⟨fun _ => ?_, fun k hk => ?_⟩
        · simp only [callF, Trie.deleteF, if_pos hl]
        · simp only [accesses, if_pos hl] at hk
          exact absurd hk (Nat.not_lt_zero _)
      · refine ⟨fun h => ?_, fun k hk hf => .inl (mapAnswer_err _ ?_)⟩
        · simp only [accesses, if_neg hl] at h
          simp only [callF, Trie.deleteF, if_neg hl]
          exact congrArg (mapAnswer _) (stop_same ⟨some id, c, el⟩ (Honest.deleteBody d id) _ fl h)
        · simp only [accesses, if_neg hl] at hk
          simp only [Trie.deleteF, if_neg hl]
          exact stop_stops ⟨some id, c, el⟩ (Honest.deleteBody d id) _ fl hk hf
  | rootHash =>
    cases root with
    | none => exact ⟨fun _ => rfl, fun k hk => absurd hk (Nat.not_lt_zero _)⟩
    | some id =>
      refine ⟨fun h => ?_, fun k hk hf => .inl (mapAnswer_err _ ?_)⟩
      · exact congrArg (mapAnswer _) (stop_same ⟨some id, c, el⟩ (Honest.hashBody H c.next id) _ fl h)
      · exact stop_stops ⟨some id, c, el⟩ (Honest.hashBody H c.next id) _ fl hk hf

/-! ## C159: the costs -/

/-- **C159**: adding and deleting ask the storage a number of times that depends on the length of the element only, not on
the number of elements, in every state of the trie and its storage. -/
theorem C159_changes (H : Bytes → Bytes) (t : Trie) (d : Bytes) :
    accesses H t (.add d) ≤ 3 * d.length + 4 ∧ accesses H t (.delete d) ≤ 5 * d.length + 2 := by
  obtain ⟨root, c, el⟩ := t
  cases root with
  | none => exact ⟨show 1 ≤ _ by omega, Nat.zero_le _⟩
  | some id =>
    refine ⟨?_, ?_⟩
    · have := (Costs.addBody d id).cost (c, 0)
      simp only [Nat.zero_add] at this
      exact this
    · have := (Costs.deleteBody d id).cost (c, 0)
      simp only [Nat.zero_add] at this
      simp only [accesses]
      split
      · exact Nat.zero_le _
      · exact this

theorem stop_cache {α β : Type} (t : Trie) (r : Res CacheError α × FState) (k : α → FState → Res TrieError β × Trie)
    (hk : ∀ a s, (k a s).2.cache = s.1) : (t.stop r k).2.cache = r.2.1 := by
  obtain ⟨r, s⟩ := r
  cases r with
  | ok a => exact hk a s
  | err e => rfl
  | panic => rfl

theorem mapAnswer_trie {α β : Type} (f : α → β) (x : Res TrieError α × Trie) : (mapAnswer f x).2 = x.2 := by
  obtain ⟨r, t⟩ := x
  cases r <;> rfl

/-- The accesses of asking for the root hash, against the nodes that have to be hashed. -/
theorem hash_amortised {t : Trie} {ss : List Bytes} (h : TrieInv H L t ss) (l : List Nat) (hl : DirtyIn t.cache l) :
    ∃ l', DirtyIn (callF H healthy t .rootHash).2.cache l' ∧ accesses H t .rootHash + 513 * l'.length ≤ 2 + 513 * l.length := by
  obtain ⟨root, c, el⟩ := t
  obtain ⟨hw, _, hrep⟩ := h
  cases root with
  | none => exact ⟨l, hl, show 0 + _ ≤ _ by omega⟩
  | some id =>
    obtain ⟨hel, F, v, hr, hF⟩ := hrep
    simp only at hel hr hF hw
    obtain ⟨n, hn⟩ := hr.some_of_mem id hr.mem_root
    obtain ⟨n', c', k', l', a1, a2, a3, a4, a5, a6⟩ := calculateHashF_amortised (H := H) c.next n c hw hn hr
      (Room.of_lt (hr.lt_next hw)) 1 l hl
    have hget : getNodeF id healthy (c, 0) = (.ok n, (c, 1)) := by
      simp only [getNodeF, Bool.false_eq_true, if_false, getNode_ok hw hn]
    have hbody : hashBody H c.next id healthy (c, 0) = (.ok n', (c'.setNode id n', k' + 1)) := by
      show FM.bind _ _ _ _ = _
      rw [FM.bind]
      simp only [hget]
      show FM.bind _ _ _ _ = _
      rw [FM.bind]
      simp only [a1]
      rfl
    have hcache : (callF H healthy ⟨some id, c, el⟩ .rootHash).2.cache = c'.setNode id n' := by
      rw [callF, mapAnswer_trie]
      simp only [Trie.rootHashF]
      rw [stop_cache _ _ _ (fun a s => rfl), hbody]
    have hacc : accesses H ⟨some id, c, el⟩ .rootHash = k' + 1 := by
      simp only [accesses, hbody]
    have d2 : DirtyIn (c'.setNode id n') (without l' id) :=
      a4.put_clean id (some n') (by rintro x ⟨⟩ hx; exact a3 hx) rfl
    refine ⟨without l' id, by rw [hcache]; exact d2, ?_⟩
    rw [hacc]
    cases hcond : (!n.isLeaf && n.dirty) with
    | true =>
      have hmem : id ∈ l' := by
        simp only [Bool.and_eq_true, Bool.not_eq_true'] at hcond
        refine a4 id n a2 hcond.2 (fun hno => ?_)
        simp [Node.isLeaf, hno] at hcond
      have h1 := without_lt hmem
      have h2 := a5 hcond
      omega
    | false =>
      obtain ⟨h1, h2⟩ := a6 hcond
      have h3 := without_le l' id
      subst h2
      omega

/-- The accesses of a change, and the nodes that it leaves to be hashed. -/
theorem change_amortised (t : Trie) (op : TrieOp) (d : Bytes) (hop : op = .add d ∨ op = .delete d) (l : List Nat)
    (hl : DirtyIn t.cache l) :
    ∃ l', DirtyIn (callF H healthy t op).2.cache l' ∧
      accesses H t op + 513 * l'.length ≤ 518 * d.length + 4 + 513 * l.length := by
  obtain ⟨h1, h2⟩ := C159_changes H t d
  obtain ⟨root, c, el⟩ := t
  rcases hop with rfl | rfl
  · cases root with
    | none =>
      have d1 : DirtyIn (c.allocate.2.setNode c.allocate.1 ⟨false, d, none⟩) (without (without l c.next) c.next) :=
        (DirtyIn.put_clean (c' := c.allocate.2) hl c.next (some Node.default) (by rintro x ⟨⟩; exact fun _ => rfl) rfl).put_clean
          c.next (some ⟨false, d, none⟩) (by rintro x ⟨⟩; exact fun _ => rfl) rfl
      refine ⟨_, d1, ?_⟩
      have h3 := without_le (without l c.next) c.next
      have h4 := without_le l c.next
      omega
    | some id =>
      obtain ⟨l', h3, h4⟩ := (Costs.addBody d id).soil (c, 0) l hl
      refine ⟨l', ?_, by omega⟩
      rw [callF, mapAnswer_trie]
      simp only [Verif.Trie.Trie.addF]
      rw [stop_cache _ _ _ (fun a s => by cases a <;> rfl)]
      exact h4
  · cases root with
    | none =>
      refine ⟨l, hl, ?_⟩
      show 0 + _ ≤ _
      omega
    | some id =>
      by_cases hel : d.length ≠ el
      · refine ⟨l, ?_, by omega⟩
        rw [callF, mapAnswer_trie]
        simp only [Trie.deleteF, if_pos hel]
        exact hl
      · obtain ⟨l', h3, h4⟩ := (Costs.deleteBody d id).soil (c, 0) l hl
        refine ⟨l', ?_, by omega⟩
        rw [callF, mapAnswer_trie]
        simp only [Trie.deleteF, if_neg hel]
        rw [stop_cache _ _ _ (fun a s => by cases a <;> rfl)]
        exact h4

theorem callF_healthy_inv {t : Trie} {ss : List Bytes} (h : TrieInv H L t ss) (hL : L < u32Lim) (op : TrieOp) (hop : OfLen L [op]) :
    TrieInv H L (callF H healthy t op).2 (specStep ss op) := by
  have ha := callF_agrees (H := H) healthy t op (fun _ _ => rfl)
  obtain ⟨t', e, hi⟩ : ∃ t', callOk H t op = .ok (specAnswer H ss op, t') ∧ TrieInv H L t' (specStep ss op) := by
    have hop := hop op List.mem_cons_self
    cases op with
    | add d =>
      obtain ⟨t1, e1, i1⟩ := h.add hL d hop
      exact ⟨t1, by simp only [callOk, e1, Res.ok_bind]; rfl, i1⟩
    | delete d =>
      obtain ⟨t1, e1, i1⟩ := h.delete d hop
      exact ⟨t1, by simp only [callOk, e1, Res.ok_bind]; rfl, i1⟩
    | rootHash =>
      obtain ⟨t1, e1, i1⟩ := h.rootHash
      exact ⟨t1, by simp only [callOk, e1, Res.ok_bind]; rfl, i1⟩
  rw [e] at ha
  cases ec : callF H healthy t op with
  | mk r t2 =>
    rw [ec] at ha
    cases r with
    | ok a =>
      have ha : (Res.ok (specAnswer H ss op, t') : Res TrieError _) = .ok (a, t2) := ha
      injection ha with ha; injection ha with h1 h2; subst h2
      exact hi
    | err x =>
      have ha : (x = storageError ∧ ∃ k, healthy k = true) ∨ (Res.ok (specAnswer H ss op, t') : Res TrieError _) = .err x := ha
      rcases ha with ⟨_, k, hk⟩ | ha
      · cases hk
      · cases ha
    | panic => cases ha

/-- The accesses during a history of calls on a storage that works. -/
def totalAccesses (H : Bytes → Bytes) (t : Trie) : List TrieOp → Nat
  | [] => 0
  | op :: ops => accesses H t op + totalAccesses H (callF H healthy t op).2 ops

/-- The calls that change the set. -/
def changes (ops : List TrieOp) : Nat := (ops.filter fun op => match op with | .rootHash => false | _ => true).length

/-- The calls that ask for the root hash. -/
def queries (ops : List TrieOp) : Nat := (ops.filter fun op => match op with | .rootHash => true | _ => false).length

theorem total_amortised (hL : L < u32Lim) : ∀ (ops : List TrieOp) (t : Trie) (ss : List Bytes) (l : List Nat), TrieInv H L t ss →
    OfLen L ops → DirtyIn t.cache l →
    totalAccesses H t ops ≤ changes ops * (518 * L + 4) + 2 * queries ops + 513 * l.length := by
  intro ops
  induction ops with
  | nil => intro t ss l _ _ _; exact Nat.zero_le _
  | cons op ops ih =>
    intro t ss l h hops hl
    have hi := callF_healthy_inv h hL op hops.head
    have hlen := hops op List.mem_cons_self
    rw [totalAccesses]
    cases op with
    | rootHash =>
      obtain ⟨l', d', b'⟩ := hash_amortised h l hl
      have := ih _ _ l' hi hops.tail d'
      have e1 : changes (.rootHash :: ops) = changes ops := rfl
      have e2 : queries (.rootHash :: ops) = queries ops + 1 := rfl
      rw [e1, e2]
      omega
    | add d =>
      have hd : d.length = L := hlen
      obtain ⟨l', d', b'⟩ := change_amortised (H := H) t (.add d) d (.inl rfl) l hl
      have := ih _ _ l' hi hops.tail d'
      have e1 : changes (.add d :: ops) = changes ops + 1 := rfl
      have e2 : queries (.add d :: ops) = queries ops := rfl
      rw [e1, e2, Nat.add_mul]
      rw [hd] at b'
      omega
    | delete d =>
      have hd : d.length = L := hlen
      obtain ⟨l', d', b'⟩ := change_amortised (H := H) t (.delete d) d (.inr rfl) l hl
      have := ih _ _ l' hi hops.tail d'
      have e1 : changes (.delete d :: ops) = changes ops + 1 := rfl
      have e2 : queries (.delete d :: ops) = queries ops := rfl
      rw [e1, e2, Nat.add_mul]
      rw [hd] at b'
      omega

/-- **C159**: hashing is incremental. Over any history, however large the trie becomes and however often the root hash is
asked for, the storage is accessed at most `518 L + 4` times per change of an element of `L` bytes, and twice per query. -/
theorem C159_total (H : Bytes → Bytes) (L : Nat) (hL : L < 2 ^ 32) (ops : List TrieOp) (hops : OfLen L ops) :
    totalAccesses H Trie.new ops ≤ changes ops * (518 * L + 4) + 2 * queries ops := by
  have := total_amortised (H := H) hL ops Trie.new [] [] TrieInv.new hops (fun i n hi => by cases hi)
  simpa using this

/-- **C159**: asking for the root hash again costs two accesses. -/
theorem C159_again (H : Bytes → Bytes) (L : Nat) (hL : L < 2 ^ 32) (ops : List TrieOp) (hops : OfLen L ops) (outs : List TrieOut)
    (t : Trie) (hrun : runTrie H Trie.new ops = .ok (outs, t)) :
    accesses H (callF H healthy t .rootHash).2 .rootHash ≤ 2 := by
  obtain ⟨t', e, hi⟩ := TrieInv.run (H := H) hL ops Trie.new [] TrieInv.new hops
  rw [hrun] at e
  injection e with e; injection e with _ e; subst e
  obtain ⟨root, c, el⟩ := t
  cases root with
  | none => exact Nat.zero_le _
  | some id =>
    have hi' := callF_healthy_inv hi hL .rootHash (fun op hop => by rw [List.mem_singleton.1 hop]; trivial)
    -- the first query
    obtain ⟨hw, _, hrep⟩ := hi
    obtain ⟨hel, F, v, hr, hF⟩ := hrep
    simp only at hel hr hF hw
    obtain ⟨n, hn⟩ := hr.some_of_mem id hr.mem_root
    obtain ⟨n', c', k', l', a1, a2, a3, _⟩ := calculateHashF_amortised (H := H) c.next n c hw hn hr
      (Room.of_lt (hr.lt_next hw)) 1 ((List.range c.next)) (fun i m hm _ _ => List.mem_range.2 (by
        by_contra hge
        rw [hw.fresh i (by omega)] at hm
        cases hm))
    have hget : getNodeF id healthy (c, 0) = (.ok n, (c, 1)) := by
      simp only [getNodeF, Bool.false_eq_true, if_false, getNode_ok hw hn]
    have hbody : hashBody H c.next id healthy (c, 0) = (.ok n', (c'.setNode id n', k' + 1)) := by
      show FM.bind _ _ _ _ = _
      rw [FM.bind]
      simp only [hget]
      show FM.bind _ _ _ _ = _
      rw [FM.bind]
      simp only [a1]
      rfl
    have htrie : (callF H healthy ⟨some id, c, el⟩ .rootHash).2 = ⟨some id, c'.setNode id n', el⟩ := by
      rw [callF, mapAnswer_trie]
      simp only [Trie.rootHashF, hbody]
      rfl
    rw [htrie] at hi' ⊢
    -- the second one
    obtain ⟨hw2, _, hrep2⟩ := hi'
    obtain ⟨_, F2, v2, hr2, _⟩ := hrep2
    simp only at hr2 hw2
    have hn2 : (c'.setNode id n').cache id = some n' := by simp only [Cache.setNode]; rw [put_same]
    obtain ⟨n3, c3, k3, l3, b1, _, _, _, _, b6⟩ := calculateHashF_amortised (H := H) (c'.setNode id n').next n' (c'.setNode id n') hw2
      hn2 hr2 (Room.of_lt (hr2.lt_next hw2)) 1 ((List.range (c'.setNode id n').next)) (fun i m hm _ _ => List.mem_range.2 (by
        by_contra hge
        rw [hw2.fresh i (by omega)] at hm
        cases hm))
    have hclean : (!n'.isLeaf && n'.dirty) = false := by
      cases hd : n'.dirty with
      | false => simp
      | true => simp [Node.isLeaf, a3 hd]
    have hk3 : k3 = 1 := (b6 hclean).1
    have hget2 : getNodeF id healthy (c'.setNode id n', 0) = (.ok n', (c'.setNode id n', 1)) := by
      simp only [getNodeF, Bool.false_eq_true, if_false, getNode_ok hw2 hn2]
    have hbody2 : hashBody H (c'.setNode id n').next id healthy (c'.setNode id n', 0) = (.ok n3, (c3.setNode id n3, k3 + 1)) := by
      show FM.bind _ _ _ _ = _
      rw [FM.bind]
      simp only [hget2]
      show FM.bind _ _ _ _ = _
      rw [FM.bind]
      simp only [b1]
      rfl
    simp only [accesses, hbody2]
    omega

/-- The hypotheses hold, and the bounds are not met trivially. -/
example : OfLen 2 [.add [1, 2], .add [1, 3], .rootHash, .delete [1, 2], .rootHash, .rootHash] ∧
    changes [.add [1, 2], .add [1, 3], .rootHash, .delete [1, 2], .rootHash, .rootHash] = 3 ∧
    0 < totalAccesses toyHash Trie.new [.add [1, 2], .add [1, 3], .rootHash, .delete [1, 2], .rootHash, .rootHash] := by
  refine ⟨?_, rfl, ?_⟩
  · intro op hop
    simp only [List.mem_cons, List.not_mem_nil, or_false] at hop
    rcases hop with rfl | rfl | rfl | rfl | rfl | rfl <;> first | rfl | trivial
  · rw [totalAccesses]
    have : accesses toyHash Trie.new (.add [1, 2]) = 1 := rfl
    omega

/-! ## C160: nodes in memory -/

/-- C160 is violated: no call on a non-empty trie succeeds if the first access to the storage fails, whatever is in memory:
every use of a node asks the storage for it, and its answer is dropped if the node is in memory. -/
theorem C160_violated (H : Bytes → Bytes) (t : Trie) (id : Nat) (hr : t.root = some id) (fl : Nat → Bool) (hf : fl 0 = true)
    (op : TrieOp) (hop : ∀ d, op = .delete d → d.length = t.elementLength) :
    (callF H fl t op).1 = .err storageError := by
  have key : ∀ {α β : Type} (m : Node → FM α) (k : α → FState → Res TrieError β × Trie),
      (t.stop ((getNodeF id >>= m) fl (t.cache, 0)) k).1 = .err storageError := by
    intro α β m k
    have : (getNodeF id >>= m) fl (t.cache, 0) = (.err .storageAccessFailed, (t.cache, 1)) := by
      show FM.bind _ _ _ _ = _
      simp only [FM.bind, getNodeF, hf, if_true]
    rw [this]
    rfl
  cases op with
  | add d => exact mapAnswer_err _ (by simp only [Verif.Trie.Trie.addF, hr]; exact key _ _)
  | delete d =>
    refine mapAnswer_err _ ?_
    simp only [Trie.deleteF, hr]
    rw [if_neg (fun h => h (hop d rfl))]
    exact key _ _
  | rootHash => exact mapAnswer_err _ (by simp only [Trie.rootHashF, hr]; exact key _ _)

/-- **C160**, what holds: the copy in memory is the one that is used, whatever readable node the storage holds in its
place. Missing: the storage is asked, and has to answer. -/
theorem C160_memory_wins_partial (c : Cache) (id : Nat) (n m : Node) (data : Bytes) (hn : c.cache id = some n)
    (hs : c.storage id = some data) (hd : deserialize data = some m) : c.getNode id = .ok (n, c) := by
  simp only [Cache.getNode, hs, hd, hn]

/-- A trie with one element, all in memory: the hypotheses hold. -/
example : ∃ t id, runTrie toyHash Trie.new [.add [7]] = .ok ([.flag true], t) ∧ t.root = some id ∧ t.elementLength = 1 ∧
    t.cache.cache id = some ⟨false, [7], none⟩ ∧ (callF toyHash (fun k => k = 0) t .rootHash).1 = .err storageError := by
  refine ⟨_, 0, rfl, rfl, rfl, rfl, ?_⟩
  exact C160_violated toyHash _ 0 rfl _ (by decide) _ (fun d h => nomatch h)

/-- A case of `C159_total`: three changes and three hashes of strings of two bytes. -/
example (H : Bytes → Bytes) : totalAccesses H Trie.new
    [.add [1, 2], .add [1, 3], .rootHash, .delete [1, 2], .rootHash, .rootHash] ≤ 3 * (518 * 2 + 4) + 2 * 3 :=
  C159_total H 2 (by decide) _ (by simp [OfLen])

end Verif.Props
