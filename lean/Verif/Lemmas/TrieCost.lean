import Verif.Lemmas.TrieFault
import Mathlib.Tactic.Linarith
/-!
# How many accesses to the storage the trie functions make

`m healthy s` counts them, in the second component of the state it leaves behind.
-/

namespace Verif.Trie
open Verif

variable {H : Bytes → Bytes}

/-- A storage that works. -/
abbrev healthy : Nat → Bool := fun _ => false

/-- The accesses made on a storage that works are the ones whose failure matters: if none of them fails nothing changes, and
if one of them does this is the outcome. -/
structure Honest {α : Type} (m : FM α) : Prop where
  mono : ∀ s, s.2 ≤ (m healthy s).2.2
  same : ∀ fl s, (∀ k, s.2 ≤ k → k < (m healthy s).2.2 → fl k = false) → m fl s = m healthy s
  stops : ∀ fl s k, s.2 ≤ k → k < (m healthy s).2.2 → fl k = true → (m fl s).1 = .err .storageAccessFailed

theorem Honest.free {α : Type} {m : FM α} (h1 : ∀ fl s, m fl s = m healthy s) (h2 : ∀ s, (m healthy s).2.2 = s.2) :
    Honest m :=
  ⟨fun s => (h2 s).ge, fun fl s _ => h1 fl s, fun fl s k a b => absurd (h2 s ▸ b) (by omega)⟩

theorem Honest.pure {α : Type} (a : α) : Honest (Pure.pure a : FM α) := .free (fun _ _ => rfl) (fun _ => rfl)

theorem Honest.panic {α : Type} : Honest (FM.panic : FM α) := .free (fun _ _ => rfl) (fun _ => rfl)

theorem Honest.ofRes {α : Type} (r : Res CacheError α) : Honest (FM.ofRes r) := .free (fun _ _ => rfl) (fun _ => rfl)

theorem Honest.allocate : Honest allocateF := .free (fun _ _ => rfl) (fun _ => rfl)

/-- A function that makes one access first. -/
theorem Honest.one {α : Type} {m : FM α} (h1 : ∀ s, (m healthy s).2.2 = s.2 + 1)
    (h2 : ∀ fl s, fl s.2 = false → m fl s = m healthy s)
    (h3 : ∀ fl s, fl s.2 = true → (m fl s).1 = .err .storageAccessFailed) : Honest m := by
  refine ⟨fun s => by rw [h1 s]; omega, fun fl s h => h2 fl s (h s.2 (Nat.le_refl _) (by rw [h1 s]; omega)), fun fl s k a b c => ?_⟩
  rw [h1 s] at b
  have : k = s.2 := by omega
  subst this
  exact h3 fl s c

theorem getNodeF_count (id : Nat) (s : FState) : (getNodeF id healthy s).2.2 = s.2 + 1 := by
  simp only [getNodeF, Bool.false_eq_true, if_false]
  cases s.1.getNode id <;> rfl

theorem Honest.getNode (id : Nat) : Honest (getNodeF id) :=
  .one (getNodeF_count id) (fun fl s h => by simp [getNodeF, h]) (fun fl s h => by simp [getNodeF, h])

theorem Honest.setNode (id : Nat) (n : Node) : Honest (setNodeF id n) :=
  .one (fun _ => rfl) (fun fl s h => by simp [setNodeF, h]) (fun fl s h => by simp [setNodeF, h])

theorem Honest.deleteNode (id : Nat) : Honest (deleteNodeF id) :=
  .one (fun _ => rfl) (fun fl s h => by simp [deleteNodeF, h]) (fun fl s h => by simp [deleteNodeF, h])

theorem Honest.bind {α β : Type} {m : FM α} {k : α → FM β} (h : Honest m) (hk : ∀ a, Honest (k a)) :
    Honest (m >>= k) := by
  have e : ∀ fl s, (m >>= k) fl s = FM.bind m k fl s := fun _ _ => rfl
  have h0 : ∀ s, (m healthy s).2.2 ≤ ((m >>= k) healthy s).2.2 := by
    intro s
    rw [e, FM.bind]
    cases hm : m healthy s with
    | mk r s' =>
      cases r with
      | ok a => exact (hk a).mono s'
      | err x => exact Nat.le_refl _
      | panic => exact Nat.le_refl _
  refine ⟨fun s => Nat.le_trans (h.mono s) (h0 s), fun fl s hf => ?_, fun fl s j a b c => ?_⟩
  · have h1 := h.same fl s (fun k' a b => hf k' a (Nat.lt_of_lt_of_le b (h0 s)))
    rw [e, e]
    rw [e] at hf
    unfold FM.bind at hf ⊢
    rw [h1]
    have hm1 := h.mono s
    cases hm : m healthy s with
    | mk r s' =>
      rw [hm] at hf hm1
      cases r with
      | ok a => exact (hk a).same fl s' (fun k' a b => hf k' (Nat.le_trans hm1 a) b)
      | err x => rfl
      | panic => rfl
  · by_cases hj : ∃ i, s.2 ≤ i ∧ i < (m healthy s).2.2 ∧ fl i = true
    · obtain ⟨i, i1, i2, i3⟩ := hj
      have h1 := h.stops fl s i i1 i2 i3
      rw [e]
      unfold FM.bind
      cases hm : m fl s with
      | mk r s' =>
        rw [hm] at h1
        simp only at h1
        subst h1
        rfl
    · have h1 := h.same fl s (fun k' a b => by
        cases hx : fl k' with
        | false => rfl
        | true => exact absurd ⟨k', a, b, hx⟩ hj)
      have hge : (m healthy s).2.2 ≤ j := by
        by_contra hlt
        exact hj ⟨j, a, by omega, c⟩
      rw [e] at b ⊢
      unfold FM.bind at b ⊢
      rw [h1]
      cases hm : m healthy s with
      | mk r s' =>
        rw [hm] at b hge
        cases r with
        | ok a' => exact (hk a').stops fl s' j hge b c
        | err x => exact absurd b (by simp only at hge ⊢; omega)
        | panic => exact absurd b (by simp only at hge ⊢; omega)

theorem Honest.find : ∀ (d : Bytes) (n : Node), Honest (findF d n)
  | d, n => by
    unfold findF
    cases hc : n.children with
    | none => exact .pure _
    | some ch =>
      cases d with
      | nil => exact .panic
      | cons b rest =>
        cases hb : ch b with
        | none => simp only [hb]; exact .pure _
        | some id =>
          simp only [hb]
          exact .bind (.getNode id) (fun child => Honest.find rest child)

theorem Honest.buildChain (path d : Bytes) : ∀ (n id : Nat), Honest (buildChainF path d n id)
  | 0, id => .pure _
  | i + 1, id => by
    unfold buildChainF
    cases d[i]? with
    | none => exact .panic
    | some b => exact .bind .allocate (fun id2 => .bind (.setNode _ _) (fun _ => Honest.buildChain path d i id2))

theorem Honest.addLeaf (n : Node) (d path : Bytes) : Honest (addLeafF n d path) := by
  refine .bind (.ofRes _) (fun idiff => .bind .allocate (fun curId => .bind (.setNode _ _) (fun _ =>
    .bind .allocate (fun newId => .bind (.setNode _ _) (fun _ => .bind .allocate (fun id => ?_))))))
  cases d[idiff]? with
  | none => exact .panic
  | some x =>
    cases n.hash[idiff]? with
    | none => exact .panic
    | some y => exact .bind (.setNode _ _) (fun _ => Honest.buildChain path d idiff id)

theorem Honest.add : ∀ (d : Bytes) (n : Node) (path : Bytes), Honest (addF d n path)
  | d, n, path => by
    unfold addF
    cases hc : n.children with
    | none => exact Honest.addLeaf n d path
    | some ch =>
      cases d with
      | nil => exact .panic
      | cons b rest =>
        cases hb : ch b with
        | none =>
          simp only [hb]
          exact .bind .allocate (fun childId => .bind (.setNode _ _) (fun _ =>
            .bind .allocate (fun id => .bind (.setNode _ _) (fun _ => .pure id))))
        | some id =>
          simp only [hb]
          exact .bind (.getNode id) (fun child => .bind (Honest.add rest child _) (fun updated =>
            .bind (.setNode _ _) (fun _ => .pure id)))

theorem Honest.removeFinish (ch : Children) (nid : Nat) (path : Bytes) : Honest (removeFinishF ch nid path) := by
  have hkeep : Honest (keepF ch nid path) := .bind (.setNode _ _) (fun _ => .pure nid)
  unfold removeFinishF
  match childList ch with
  | [] => exact hkeep
  | [(i, childId)] =>
    refine .bind (.getNode childId) (fun child => ?_)
    cases child.isLeaf with
    | true => exact .bind (.deleteNode _) (fun _ => .bind (.setNode _ _) (fun _ => .pure nid))
    | false => exact hkeep
  | _ :: _ :: _ => exact hkeep

theorem Honest.remove : ∀ (d : Bytes) (n : Node) (path : Bytes), Honest (removeF d n path)
  | [], n, path => .panic
  | b :: rest, n, path => by
    unfold removeF
    cases hc : n.children with
    | none => exact .panic
    | some ch =>
      cases hb : ch b with
      | none => simp only [hb]; exact .panic
      | some nid =>
        simp only [hb]
        refine .bind (.getNode nid) (fun node => ?_)
        cases node.isLeaf with
        | true => exact Honest.removeFinish _ _ _
        | false => exact .bind (Honest.remove rest node _) (fun updated => Honest.removeFinish _ _ _)

theorem Honest.calcChildren (rec : Node → FM Node) (h : ∀ n, Honest (rec n)) : ∀ (l : List (UInt8 × Nat)),
    Honest (calcChildrenF rec l)
  | [] => .pure _
  | (b, id) :: ids => by
    have ih := Honest.calcChildren rec h ids
    refine .bind (.getNode id) (fun child => ?_)
    cases !child.isLeaf && child.dirty with
    | false => exact ih
    | true => exact .bind (h child) (fun child' => .bind (.setNode id child') (fun _ => ih))

theorem Honest.accumulate : ∀ (l : List (UInt8 × Nat)), Honest (accumulateF l)
  | [] => .pure _
  | (i, id) :: ids => .bind (.getNode id) (fun _ => .bind (Honest.accumulate ids) (fun _ => .pure _))

theorem Honest.calculateHash (H : Bytes → Bytes) : ∀ (fuel : Nat) (n : Node), Honest (calculateHashF H fuel n)
  | 0, n => .panic
  | fuel + 1, n => by
    unfold calculateHashF
    cases hc : n.children with
    | none => exact .pure _
    | some ch =>
      simp only
      cases hd : n.dirty with
      | false => exact .pure _
      | true =>
        exact .bind (Honest.calcChildren _ (fun m => Honest.calculateHash H fuel m) (childList ch)) (fun _ =>
          .bind (Honest.accumulate (childList ch)) (fun acc => .pure _))

theorem Honest.hashBody (H : Bytes → Bytes) (budget id : Nat) : Honest (hashBody H budget id) :=
  .bind (.getNode id) (fun root => .bind (Honest.calculateHash H budget root) (fun root' =>
    .bind (.setNode id root') (fun _ => .pure _)))

theorem Honest.addBody (d : Bytes) (id : Nat) : Honest (addBody d id) := by
  refine .bind (.getNode id) (fun pnode => .bind (Honest.find d pnode) (fun found => ?_))
  cases found with
  | true => exact .pure _
  | false => exact .bind (Honest.add d pnode []) (fun _ => .bind (.deleteNode id) (fun _ => .pure _))

theorem Honest.deleteBody (d : Bytes) (id : Nat) : Honest (deleteBody d id) := by
  refine .bind (.getNode id) (fun pnode => .bind (Honest.find d pnode) (fun found => ?_))
  cases found with
  | false => exact .pure _
  | true =>
    simp only [Bool.not_true, Bool.false_eq_true, if_false]
    cases pnode.isLeaf with
    | true => exact .bind (.deleteNode id) (fun _ => .pure _)
    | false => exact .bind (Honest.remove d pnode []) (fun _ => .bind (.deleteNode id) (fun _ => .pure _))

/-! ## Bounds that hold in every state -/

/-- The inner nodes in memory that have to be hashed again are among `l`. -/
def DirtyIn (c : Cache) (l : List Nat) : Prop :=
  ∀ i n, c.cache i = some n → n.dirty = true → n.children ≠ none → i ∈ l

/-- At most `N` accesses, and at most `D` more nodes to hash. -/
structure Costs {α : Type} (m : FM α) (N D : Nat) : Prop where
  cost : ∀ s, (m healthy s).2.2 ≤ s.2 + N
  soil : ∀ s l, DirtyIn s.1 l → ∃ l', l'.length ≤ l.length + D ∧ DirtyIn (m healthy s).2.1 l'

theorem Costs.mono {α : Type} {m : FM α} {N D N' D' : Nat} (h : Costs m N D) (hN : N ≤ N') (hD : D ≤ D') : Costs m N' D' :=
  ⟨fun s => by have := h.cost s; omega, fun s l hl => by
    obtain ⟨l', h1, h2⟩ := h.soil s l hl
    exact ⟨l', by omega, h2⟩⟩

theorem Costs.free {α : Type} {m : FM α} (h : ∀ s, (m healthy s).2 = s) : Costs m 0 0 :=
  ⟨fun s => by rw [h s]; omega, fun s l hl => ⟨l, Nat.le_refl _, by rw [h s]; exact hl⟩⟩

theorem Costs.pure {α : Type} (a : α) : Costs (Pure.pure a : FM α) 0 0 := .free fun _ => rfl

theorem Costs.panic {α : Type} : Costs (FM.panic : FM α) 0 0 := .free fun _ => rfl

theorem Costs.bind {α β : Type} {m : FM α} {k : α → FM β} {N D N' D' : Nat} (h : Costs m N D) (hk : ∀ a, Costs (k a) N' D') :
    Costs (m >>= k) (N + N') (D + D') := by
  have e : ∀ fl s, (m >>= k) fl s = FM.bind m k fl s := fun _ _ => rfl
  refine ⟨fun s => ?_, fun s l hl => ?_⟩
  · have h1 := h.cost s
    rw [e]; unfold FM.bind
    cases hm : m healthy s with
    | mk r s' =>
      rw [hm] at h1
      simp only at h1
      cases r with
      | ok a => have := (hk a).cost s'; simp only; omega
      | err x => simp only; omega
      | panic => simp only; omega
  · obtain ⟨l1, h1, h2⟩ := h.soil s l hl
    rw [e]; unfold FM.bind
    cases hm : m healthy s with
    | mk r s' =>
      rw [hm] at h2
      cases r with
      | ok a =>
        obtain ⟨l2, h3, h4⟩ := (hk a).soil s' l1 h2
        exact ⟨l2, by omega, h4⟩
      | err x => exact ⟨l1, by omega, h2⟩
      | panic => exact ⟨l1, by omega, h2⟩

/-- The list without an identifier. -/
def without (l : List Nat) (id : Nat) : List Nat := l.filter fun i => i ≠ id

theorem without_lt {l : List Nat} {id : Nat} (h : id ∈ l) : (without l id).length + 1 ≤ l.length := by
  have := List.length_filter_lt_length_iff_exists (p := fun i => decide (i ≠ id)) (l := l) |>.2 ⟨id, h, by simp⟩
  unfold without
  omega

theorem without_le (l : List Nat) (id : Nat) : (without l id).length ≤ l.length := List.length_filter_le _ _

/-- A node that is replaced by one that need not be hashed. -/
theorem DirtyIn.put_clean {c c' : Cache} {l : List Nat} (h : DirtyIn c l) (id : Nat) (n : Option Node)
    (hn : ∀ m, n = some m → m.dirty = true → m.children = none) (e : c'.cache = put c.cache id n) :
    DirtyIn c' (without l id) := by
  intro i m hi hd hc
  rw [e] at hi
  by_cases hid : i = id
  · subst hid
    rw [put_same] at hi
    exact absurd (hn m hi hd) hc
  · rw [put_ne _ _ hid] at hi
    exact List.mem_filter.2 ⟨h i m hi hd hc, by simpa using hid⟩

theorem DirtyIn.put_any {c c' : Cache} {l : List Nat} (h : DirtyIn c l) (id : Nat) (n : Option Node)
    (e : c'.cache = put c.cache id n) : DirtyIn c' (id :: l) := by
  intro i m hi hd hc
  rw [e] at hi
  by_cases hid : i = id
  · subst hid; exact List.mem_cons_self
  · rw [put_ne _ _ hid] at hi
    exact List.mem_cons_of_mem _ (h i m hi hd hc)

theorem Costs.put_clean {α : Type} {m : FM α} {N : Nat} (h : ∀ s, (m healthy s).2.2 ≤ s.2 + N)
    (h2 : ∀ s : FState, (m healthy s).2.1.cache = s.1.cache ∨ ∃ id n, (∀ x, n = some x → x.dirty = true → x.children = none) ∧
      (m healthy s).2.1.cache = put s.1.cache id n) : Costs m N 0 := by
  refine ⟨h, fun s l hl => ?_⟩
  rcases h2 s with e | ⟨id, n, hn, e⟩
  · exact ⟨l, Nat.le_refl _, fun i n hi => hl i n (by rw [← e]; exact hi)⟩
  · exact ⟨without l id, without_le l id, hl.put_clean id n hn e⟩

theorem Costs.allocate : Costs allocateF 0 0 :=
  .put_clean (fun _ => Nat.le_refl _) fun s => .inr ⟨s.1.next, some Node.default, by rintro x ⟨⟩; exact fun _ => rfl, rfl⟩

theorem deserialize_clean {d : Bytes} {n : Node} (h : deserialize d = some n) : n.dirty = false := by
  unfold deserialize at h
  split at h
  · cases h
  · split at h
    · cases h
    · split at h
      · cases h
      · split at h
        · split at h
          · cases h
          · injection h with h; subst h; rfl
        · injection h with h; subst h; rfl

theorem Costs.getNode (id : Nat) : Costs (getNodeF id) 1 0 := by
  refine .put_clean (fun s => (getNodeF_count id s).le) fun s => ?_
  simp only [getNodeF, Bool.false_eq_true, if_false, Cache.getNode]
  cases hs : s.1.storage id with
  | none => exact .inl rfl
  | some data =>
    simp only
    cases hd : deserialize data with
    | none => exact .inl rfl
    | some node =>
      simp only
      cases hc : s.1.cache id with
      | some n => exact .inl rfl
      | none =>
        refine .inr ⟨id, some node, ?_, rfl⟩
        rintro x ⟨⟩ hx
        rw [deserialize_clean hd] at hx
        cases hx

theorem Costs.setLeaf (id : Nat) (dirty : Bool) (h : Bytes) : Costs (setNodeF id ⟨dirty, h, none⟩) 1 0 :=
  .put_clean (fun _ => Nat.le_refl _) fun _ => .inr ⟨id, _, by rintro x ⟨⟩; exact fun _ => rfl, rfl⟩

theorem Costs.setNode (id : Nat) (n : Node) : Costs (setNodeF id n) 1 1 :=
  ⟨fun _ => Nat.le_refl _, fun _ l hl => ⟨id :: l, Nat.le_refl _, hl.put_any id (some n) rfl⟩⟩

theorem Costs.deleteNode (id : Nat) : Costs (deleteNodeF id) 1 0 :=
  .put_clean (fun _ => Nat.le_refl _) fun _ => .inr ⟨id, none, (fun _ h => nomatch h), rfl⟩

theorem Costs.find : ∀ (d : Bytes) (n : Node), Costs (findF d n) d.length 0
  | d, n => by
    unfold findF
    cases hc : n.children with
    | none => exact (Costs.pure _).mono (Nat.zero_le _) (Nat.zero_le _)
    | some ch =>
      cases d with
      | nil => exact .panic
      | cons b rest =>
        cases hb : ch b with
        | none => simp only [hb]; exact (Costs.pure _).mono (Nat.zero_le _) (Nat.zero_le _)
        | some id =>
          simp only [hb]
          exact ((Costs.getNode id).bind (fun child => Costs.find rest child)).mono (by rw [List.length_cons]; omega) (by omega)

theorem Costs.buildChain (path d : Bytes) : ∀ (n id : Nat), Costs (buildChainF path d n id) n n
  | 0, id => .pure _
  | i + 1, id => by
    unfold buildChainF
    cases d[i]? with
    | none => exact Costs.panic.mono (Nat.zero_le _) (Nat.zero_le _)
    | some b =>
      exact (Costs.allocate.bind (fun id2 => (Costs.setNode _ _).bind (fun _ => Costs.buildChain path d i id2))).mono
        (by omega) (by omega)

theorem diffIndex_lt : ∀ (a b : Bytes) (i : Nat), (diffIndex a b : Res CacheError Nat) = .ok i → i < b.length
  | [], b, i, h => by simp [diffIndex] at h
  | _ :: _, [], i, h => by simp [diffIndex] at h
  | x :: a, y :: b, i, h => by
    rw [diffIndex] at h
    split at h
    · cases hr : (diffIndex a b : Res CacheError Nat) with
      | ok j =>
        rw [hr] at h
        have := diffIndex_lt a b j hr
        simp only [Res.ok_bind, Res.pure_eq, Res.ok.injEq] at h
        rw [List.length_cons]; omega
      | err e => rw [hr] at h; cases h
      | panic => rw [hr] at h; cases h
    · injection h with h
      rw [List.length_cons]; omega

theorem Costs.addLeaf (n : Node) (d path : Bytes) : Costs (addLeafF n d path) (d.length + 2) d.length := by
  unfold addLeafF
  cases hr : (diffIndex n.hash d : Res CacheError Nat) with
  | err e => exact (Costs.free (fun _ => rfl)).mono (Nat.zero_le _) (Nat.zero_le _)
  | panic => exact (Costs.free (fun _ => rfl)).mono (Nat.zero_le _) (Nat.zero_le _)
  | ok idiff =>
    have hlt := diffIndex_lt _ _ _ hr
    have key : Costs (do
        let curId ← allocateF
        setNodeF curId ⟨false, n.hash.drop (idiff + 1), none⟩
        let newId ← allocateF
        setNodeF newId ⟨false, d.drop (idiff + 1), none⟩
        let id ← allocateF
        match d[idiff]?, n.hash[idiff]? with
        | some x, some y => do
          setNodeF id ⟨true, path ++ d.take idiff, some (upd (upd noChildren x (some newId)) y (some curId))⟩
          buildChainF path d idiff id
        | _, _ => FM.panic) (0 + (1 + (0 + (1 + (0 + (1 + idiff)))))) (0 + (0 + (0 + (0 + (0 + (1 + idiff)))))) := by
      refine Costs.allocate.bind (fun curId => (Costs.setLeaf _ _ _).bind (fun _ => Costs.allocate.bind (fun newId =>
        (Costs.setLeaf _ _ _).bind (fun _ => Costs.allocate.bind (fun id => ?_)))))
      cases d[idiff]? with
      | none => exact Costs.panic.mono (Nat.zero_le _) (Nat.zero_le _)
      | some x =>
        cases n.hash[idiff]? with
        | none => exact Costs.panic.mono (Nat.zero_le _) (Nat.zero_le _)
        | some y => exact (Costs.setNode _ _).bind (fun _ => Costs.buildChain path d idiff id)
    exact key.mono (by omega) (by omega)

theorem Costs.add : ∀ (d : Bytes) (n : Node) (path : Bytes), Costs (addF d n path) (2 * d.length + 2) d.length
  | d, n, path => by
    unfold addF
    cases hc : n.children with
    | none => exact (Costs.addLeaf n d path).mono (by omega) (Nat.le_refl _)
    | some ch =>
      cases d with
      | nil => exact Costs.panic.mono (Nat.zero_le _) (Nat.zero_le _)
      | cons b rest =>
        cases hb : ch b with
        | none =>
          simp only [hb]
          exact (Costs.allocate.bind (fun childId => (Costs.setLeaf _ _ _).bind (fun _ =>
            Costs.allocate.bind (fun id => (Costs.setNode _ _).bind (fun _ => Costs.pure id))))).mono
            (by rw [List.length_cons]; omega) (by rw [List.length_cons]; omega)
        | some id =>
          simp only [hb]
          exact ((Costs.getNode id).bind (fun child => (Costs.add rest child _).bind (fun updated =>
            (Costs.setNode _ _).bind (fun _ => Costs.pure id)))).mono
            (by rw [List.length_cons]; omega) (by rw [List.length_cons]; omega)

theorem Costs.removeFinish (ch : Children) (nid : Nat) (path : Bytes) : Costs (removeFinishF ch nid path) 3 1 := by
  have hkeep : Costs (keepF ch nid path) (1 + 0) (1 + 0) := (Costs.setNode _ _).bind (fun _ => .pure nid)
  unfold removeFinishF
  match childList ch with
  | [] => exact hkeep.mono (by omega) (by omega)
  | [(i, childId)] =>
    have : Costs (do
        let child ← getNodeF childId
        if child.isLeaf then do
          deleteNodeF childId
          setNodeF nid ⟨false, i :: child.hash, none⟩
          Pure.pure nid
        else keepF ch nid path) (1 + 2) (0 + 1) := by
      refine (Costs.getNode childId).bind (fun child => ?_)
      cases child.isLeaf with
      | true =>
        exact ((Costs.deleteNode _).bind (fun _ => (Costs.setLeaf _ _ _).bind (fun _ => Costs.pure nid))).mono
          (by omega) (by omega)
      | false => exact hkeep.mono (by omega) (by omega)
    exact this.mono (by omega) (by omega)
  | _ :: _ :: _ => exact hkeep.mono (by omega) (by omega)

theorem Costs.remove : ∀ (d : Bytes) (n : Node) (path : Bytes), Costs (removeF d n path) (4 * d.length) d.length
  | [], n, path => .panic
  | b :: rest, n, path => by
    unfold removeF
    cases hc : n.children with
    | none => exact Costs.panic.mono (Nat.zero_le _) (Nat.zero_le _)
    | some ch =>
      cases hb : ch b with
      | none => simp only [hb]; exact Costs.panic.mono (Nat.zero_le _) (Nat.zero_le _)
      | some nid =>
        simp only [hb]
        have : Costs (do
            let node ← getNodeF nid
            if node.isLeaf then removeFinishF (upd ch b none) nid path
            else do
              let updated ← removeF rest node (path ++ [b])
              removeFinishF (upd ch b (some updated)) nid path) (1 + (4 * rest.length + 3)) (0 + (rest.length + 1)) := by
          refine (Costs.getNode nid).bind (fun node => ?_)
          cases node.isLeaf with
          | true => exact (Costs.removeFinish _ _ _).mono (by omega) (by omega)
          | false => exact (Costs.remove rest node _).bind (fun updated => Costs.removeFinish _ _ _)
        exact this.mono (by rw [List.length_cons]; omega) (by rw [List.length_cons]; omega)

theorem Costs.addBody (d : Bytes) (id : Nat) : Costs (addBody d id) (3 * d.length + 4) d.length := by
  have : Costs (Trie.addBody d id) (1 + (d.length + (2 * d.length + 3))) (0 + (0 + d.length)) := by
    refine (Costs.getNode id).bind (fun pnode => (Costs.find d pnode).bind (fun found => ?_))
    cases found with
    | true => exact (Costs.pure _).mono (Nat.zero_le _) (Nat.zero_le _)
    | false =>
      exact ((Costs.add d pnode []).bind (fun _ => (Costs.deleteNode id).bind (fun _ => Costs.pure _))).mono
        (by omega) (by omega)
  exact this.mono (by omega) (by omega)

theorem Costs.deleteBody (d : Bytes) (id : Nat) : Costs (deleteBody d id) (5 * d.length + 2) d.length := by
  have : Costs (Trie.deleteBody d id) (1 + (d.length + (4 * d.length + 1))) (0 + (0 + d.length)) := by
    refine (Costs.getNode id).bind (fun pnode => (Costs.find d pnode).bind (fun found => ?_))
    cases found with
    | false => exact (Costs.pure _).mono (Nat.zero_le _) (Nat.zero_le _)
    | true =>
      simp only [Bool.not_true, Bool.false_eq_true, if_false]
      cases pnode.isLeaf with
      | true => exact ((Costs.deleteNode id).bind (fun _ => Costs.pure _)).mono (by omega) (by omega)
      | false =>
        exact ((Costs.remove d pnode []).bind (fun _ => (Costs.deleteNode id).bind (fun _ => Costs.pure _))).mono
          (by omega) (by omega)
  exact this.mono (by omega) (by omega)

theorem Costs.accumulate : ∀ (l : List (UInt8 × Nat)), Costs (accumulateF l) l.length 0
  | [] => .pure _
  | (i, id) :: ids =>
    ((Costs.getNode id).bind (fun _ => (Costs.accumulate ids).bind (fun _ => Costs.pure _))).mono
      (by rw [List.length_cons]; omega) (by omega)

/-! ## Hashing: every node that is hashed need not be hashed again -/

theorem Ref.healthy {α : Type} {m : FM α} {p : Cache → Res CacheError (α × Cache)} (h : Ref m p) {s : FState} {a : α}
    {c' : Cache} (e : p s.1 = .ok (a, c')) : ∃ k, m healthy s = (.ok a, (c', k)) := by
  have h1 := h Trie.healthy s
  cases hm : m Trie.healthy s with
  | mk r s' =>
    rw [hm, e] at h1
    cases r with
    | ok b =>
      have h1 : Res.ok (a, c') = Res.ok (b, s'.1) := h1
      injection h1 with h1
      injection h1 with h2 h3
      subst h2
      exact ⟨s'.2, by rw [h3]⟩
    | err x =>
      have h1 : (x = .storageAccessFailed ∧ ∃ k, Trie.healthy k = true) ∨ (Res.ok (a, c') : Res CacheError (α × Cache)) = .err x := h1
      rcases h1 with ⟨_, k, hk⟩ | h1
      · cases hk
      · cases h1
    | panic => cases h1

theorem childList_length (ch : Children) : (childList ch).length ≤ 256 := by
  unfold childList
  refine Nat.le_trans (List.length_filterMap_le _ _) ?_
  simp [allBytes]

theorem calcChildrenF_amortised (ch : Children) (path : Bytes) (SB : UInt8 → Bytes → Prop)
    (FB : UInt8 → Nat → Prop) (VB : UInt8 → View)
    (hdisj : ∀ b b' c c' i, ch b = some c → ch b' = some c' → FB b i → FB b' i → b = b')
    (rec : Node → FM Node)
    (hrec : ∀ b cb c n k l, ch b = some cb → c.WF → c.cache cb = some n →
      Rep H c.cache (path ++ [b]) cb (SB b) (FB b) (VB b) → DirtyIn c l → (!n.isLeaf && n.dirty) = true →
      ∃ n' c' k' l', rec n healthy (c, k) = (.ok n', (c', k')) ∧
        HashOK H c (c'.setNode cb n') (path ++ [b]) cb (SB b) (FB b) (VB b) ∧ c'.cache cb = some n ∧ n'.dirty = false ∧
        DirtyIn c' l' ∧ k' + 513 * l'.length ≤ k + 512 + 513 * l.length) :
    ∀ (pl : List (UInt8 × Nat)) (c : Cache) (k : Nat) (l : List Nat), c.WF → (∀ b cb, (b, cb) ∈ pl → ch b = some cb) →
      (∀ b cb, ch b = some cb → Rep H c.cache (path ++ [b]) cb (SB b) (FB b) (VB b)) → DirtyIn c l →
      ∃ c' k' l', calcChildrenF rec pl healthy (c, k) = (.ok (), (c', k')) ∧ DirtyIn c' l' ∧
        k' + 513 * l'.length ≤ k + pl.length + 513 * l.length := by
  intro pl
  induction pl with
  | nil => intro c k l _ _ _ hl; exact ⟨c, k, l, rfl, hl, by simp⟩
  | cons p pl ih =>
    intro c k l hw hpl hr hl
    obtain ⟨b, cb⟩ := p
    have hb : ch b = some cb := hpl b cb List.mem_cons_self
    have hrb := hr b cb hb
    obtain ⟨n, hn⟩ := hrb.some_of_mem cb hrb.mem_root
    have hpl' : ∀ b cb, (b, cb) ∈ pl → ch b = some cb := fun x cx hx => hpl x cx (List.mem_cons_of_mem _ hx)
    have hget : getNodeF cb healthy (c, k) = (.ok n, (c, k + 1)) := by
      simp only [getNodeF, Bool.false_eq_true, if_false, getNode_ok hw hn]
    cases hcond : (!n.isLeaf && n.dirty) with
    | true =>
      obtain ⟨n', c1, k1, l1, h1, ok, own, clean, d1, b1⟩ := hrec b cb c n (k + 1) l hb hw hn hrb hl hcond
      have hunch : ∀ x cx, x ≠ b → ch x = some cx → ∀ i, FB x i →
          (c1.setNode cb n').cache i = c.cache i := by
        intro x cx hx hcx i hi
        exact ok.frame i (fun hi' => hx (hdisj x b cx cb i hcx hb hi hi'))
      have hr' : ∀ x cx, ch x = some cx →
          Rep H (c1.setNode cb n').cache (path ++ [x]) cx (SB x) (FB x) (VB x) := by
        intro x cx hcx
        by_cases e : x = b
        · subst e; rw [hb] at hcx; injection hcx with hcx; subst hcx; exact ok.rep
        · exact (hr x cx hcx).frame _ (hunch x cx e hcx)
      have d2 : DirtyIn (c1.setNode cb n') (without l1 cb) :=
        d1.put_clean cb (some n') (by rintro x ⟨⟩ hx; rw [clean] at hx; cases hx) rfl
      have hmem : cb ∈ l1 := by
        simp only [Bool.and_eq_true, Bool.not_eq_true'] at hcond
        refine d1 cb n own hcond.2 (fun hno => ?_)
        simp [Node.isLeaf, hno] at hcond
      have hlt := without_lt hmem
      obtain ⟨c', k', l', g1, g2, g3⟩ := ih (c1.setNode cb n') (k1 + 1) (without l1 cb) ok.wf hpl' hr' d2
      refine ⟨c', k', l', ?_, g2, ?_⟩
      · show FM.bind _ _ _ _ = _
        unfold FM.bind
        simp only [hget, hcond, if_true]
        show FM.bind _ _ _ _ = _
        unfold FM.bind
        simp only [h1]
        exact g1
      · rw [List.length_cons]; omega
    | false =>
      obtain ⟨c', k', l', g1, g2, g3⟩ := ih c (k + 1) l hw hpl' hr hl
      refine ⟨c', k', l', ?_, g2, ?_⟩
      · show FM.bind _ _ _ _ = _
        unfold FM.bind
        simp only [hget, hcond, Bool.false_eq_true, if_false]
        exact g1
      · rw [List.length_cons]; omega

theorem calculateHashF_amortised : ∀ (fuel : Nat) (self : Node) (c : Cache), c.WF → ∀ {path id S F v},
    c.cache id = some self → Rep H c.cache path id S F v → Room F fuel → ∀ (k : Nat) (l : List Nat), DirtyIn c l →
    ∃ n' c' k' l', calculateHashF H fuel self healthy (c, k) = (.ok n', (c', k')) ∧ c'.cache id = some self ∧
      (n'.dirty = true → n'.children = none) ∧ DirtyIn c' l' ∧
      ((!self.isLeaf && self.dirty) = true → k' + 513 * l'.length ≤ k + 512 + 513 * l.length) ∧
      ((!self.isLeaf && self.dirty) = false → k' = k ∧ l' = l) := by
  intro fuel
  induction fuel with
  | zero =>
    intro self c hw path id S F v hself hrep hlen
    exact absurd (hlen.pos hrep.mem_root) (by omega)
  | succ fuel ih =>
    intro self c hw path id S F v hself hrep hlen k l hl
    have hspec := calculateHash_spec (H := H) (fuel + 1) self c hw hself hrep hlen
    cases hrep with
    | leaf _ _ _ _ dty suffix hg hS hF =>
      rw [hself] at hg; injection hg with hg; subst hg
      exact ⟨_, c, k, l, rfl, hself, fun _ => rfl, hl, fun h => by simp [Node.isLeaf] at h, fun _ => ⟨rfl, rfl⟩⟩
    | node _ _ _ _ dty h ch FB VB hg hnil hno hrec hF hid hdisj h2 hclean hdirty =>
      rw [hself] at hg; injection hg with hg; subst hg
      cases dty with
      | false =>
        exact ⟨_, c, k, l, rfl, hself, fun h => (by cases h), hl, fun h => by simp at h, fun _ => ⟨rfl, rfl⟩⟩
      | true =>
        have hroom : ∀ b cb, ch b = some cb → Room (FB b) fuel := fun b cb hb =>
          hlen.child ((hF id).2 (Or.inl rfl)) (fun i hi => (hF i).2 (Or.inr ⟨b, cb, hb, hi⟩)) (hid b cb hb)
        obtain ⟨c1, k1, l1, g1, g2, g3⟩ := calcChildrenF_amortised (H := H) ch path (fun b s => S (b :: s)) FB VB hdisj
          (calculateHashF H fuel) (by
            intro b cb c n k l hb hw hn hr hl hcond
            obtain ⟨n', c', k', l', a1, a2, a3, a4, a5, _⟩ := ih n c hw hn hr (hroom b cb hb) k l hl
            obtain ⟨m, c'', e1, e2, e3, _⟩ := calculateHash_spec (H := H) fuel n c hw hn hr (hroom b cb hb)
            have e4 := (calculateHashF_ref H fuel n).ok a1
            rw [show (c, k).1 = c from rfl, e1] at e4
            injection e4 with e4
            injection e4 with e5 e6
            subst e5
            simp only at e6
            subst e6
            refine ⟨m, c'', k', l', a1, e2, a2, ?_, a4, a5 hcond⟩
            cases hd : m.dirty with
            | false => rfl
            | true =>
              exfalso
              have hleaf := a3 hd
              -- a dirty inner node gives an inner node
              generalize VB b = vb at hr e2 e3
              cases hr with
              | leaf _ _ _ _ dty suffix hg hS hF => rw [hn] at hg; injection hg with hg; subst hg; simp [Node.isLeaf] at hcond
              | node => simp [Node.isLeaf, hleaf] at e3)
          (childList ch) c k l hw (fun b cb hb => (mem_childList ch b cb).1 hb) hrec hl
        obtain ⟨n', c', h1, h3, _⟩ := hspec
        obtain ⟨kk, h4⟩ := (calculateHashF_ref H (fuel + 1) ⟨true, h, some ch⟩).healthy (s := (c, k)) h1
        -- the accumulation
        have hbind : calculateHashF H (fuel + 1) ⟨true, h, some ch⟩ healthy (c, k) =
            FM.bind (accumulateF (childList ch)) (fun acc => pure ⟨false, H (UInt8.ofNat h.length :: (h ++ acc)), some ch⟩)
              healthy (c1, k1) := by
          rw [calculateHashF]
          simp only [Bool.not_true, Bool.false_eq_true, if_false]
          show FM.bind _ _ _ _ = _
          rw [FM.bind]
          simp only [g1]
          rfl
        rw [hbind] at h4
        have hcost := (Costs.accumulate (childList ch)).cost (c1, k1)
        obtain ⟨l2, s1, s2⟩ := (Costs.accumulate (childList ch)).soil (c1, k1) l1 g2
        have hlen256 := childList_length ch
        have hframe : c'.cache id = c.cache id := by
          obtain ⟨c1', q1, q2, q3, q4, q5, _, q7⟩ := calcChildren_spec (H := H) ch path
            (fun b s => S (b :: s)) FB VB hdisj
            (calculateHash H fuel) (by
              intro b cb c n hb hw hn hr
              obtain ⟨n', c', k1, k2, _⟩ := calculateHash_spec (H := H) fuel n c hw hn hr (hroom b cb hb)
              exact ⟨n', c', k1, k2⟩)
            (childList ch) c hw (fun b cb hb => (mem_childList ch b cb).1 hb) hrec
          have hacc := accumulate_spec q2 VB (childList ch) q7
          rw [calculateHash] at h1
          simp only [Bool.not_true, Bool.false_eq_true, if_false, q1, Res.ok_bind, hacc, Res.pure_eq, Res.ok.injEq,
            Prod.mk.injEq] at h1
          rw [← h1.2]
          exact q4 id (by rintro ⟨b, cb, hb, hx⟩; exact hid b cb hb hx)
        rw [FM.bind] at h4
        cases hm : accumulateF (childList ch) healthy (c1, k1) with
        | mk r s' =>
          rw [hm] at h4 hcost s2
          cases r with
          | err x => cases h4
          | panic => cases h4
          | ok acc =>
            have h4' : ((Res.ok ⟨false, H (UInt8.ofNat h.length :: (h ++ acc)), some ch⟩, s') : Res CacheError Node × FState) = (.ok n', (c', kk)) := h4
            injection h4' with h5 h6
            injection h5 with h5
            subst h6
            refine ⟨n', c', kk, l2, ?_, by rw [hframe]; exact hself, ?_, s2, fun _ => ?_, fun h => by simp [Node.isLeaf] at h⟩
            · rw [hbind, FM.bind, hm]; exact h4
            · intro hd; rw [← h5] at hd; cases hd
            · simp only at hcost; omega

end Verif.Trie
