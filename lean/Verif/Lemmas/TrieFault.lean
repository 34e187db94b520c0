import Verif.Lemmas.TrieHash
import Verif.Model.TrieFault
/-!
# The trie functions on a failing storage against those on a working storage
-/

namespace Verif.Trie
open Verif

/-- The outcome on a failing storage is a reported storage failure (and some access does fail), or the one on a working
storage. -/
def Agrees {α : Type} (fl : Nat → Bool) : Res CacheError α × FState → Res CacheError (α × Cache) → Prop
  | (.ok a, s), r => r = .ok (a, s.1)
  | (.err e, _), r => (e = .storageAccessFailed ∧ ∃ k, fl k = true) ∨ r = .err e
  | (.panic, _), r => r = .panic

/-- Whatever fails, `m` either reports a storage failure or does what `p` does on a working storage. -/
def Ref {α : Type} (m : FM α) (p : Cache → Res CacheError (α × Cache)) : Prop :=
  ∀ fl s, Agrees fl (m fl s) (p s.1)

theorem Ref.ok {α : Type} {m : FM α} {p} (h : Ref m p) {fl s a s'} (e : m fl s = (.ok a, s')) :
    p s.1 = .ok (a, s'.1) := by
  have := h fl s; rw [e] at this; exact this

theorem Ref.err {α : Type} {m : FM α} {p} (h : Ref m p) {fl s x s'} (e : m fl s = (.err x, s')) :
    (x = .storageAccessFailed ∧ ∃ k, fl k = true) ∨ p s.1 = .err x := by
  have := h fl s; rw [e] at this; exact this

theorem Ref.panicked {α : Type} {m : FM α} {p} (h : Ref m p) {fl s s'} (e : m fl s = (.panic, s')) :
    p s.1 = .panic := by
  have := h fl s; rw [e] at this; exact this

theorem Ref.congr {α : Type} {m : FM α} {p p' : Cache → Res CacheError (α × Cache)} (h : Ref m p)
    (e : ∀ c, p c = p' c) : Ref m p' := fun fl s => e s.1 ▸ h fl s

theorem Ref.pure {α : Type} (a : α) : Ref (Pure.pure a : FM α) (fun c => .ok (a, c)) := fun _ _ => rfl

theorem Ref.panic {α : Type} : Ref (FM.panic : FM α) (fun _ => .panic) := fun _ _ => rfl

theorem Ref.ofRes {α : Type} (r : Res CacheError α) : Ref (FM.ofRes r) (fun c => r >>= fun a => .ok (a, c)) := by
  intro fl s
  cases r with
  | ok a => rfl
  | err e => exact Or.inr rfl
  | panic => rfl

theorem Ref.bind {α β : Type} {m : FM α} {k : α → FM β} {p : Cache → Res CacheError (α × Cache)}
    {q : α → Cache → Res CacheError (β × Cache)} (h : Ref m p) (hk : ∀ a, Ref (k a) (q a)) :
    Ref (m >>= k) (fun c => p c >>= fun x => q x.1 x.2) := by
  intro fl s
  have hm := h fl s
  show Agrees fl (FM.bind m k fl s) (p s.1 >>= fun x => q x.1 x.2)
  unfold FM.bind
  cases e : m fl s with
  | mk r s' =>
    rw [e] at hm
    cases r with
    | ok a =>
      have hm : p s.1 = .ok (a, s'.1) := hm
      rw [hm]
      exact hk a fl s'
    | err x =>
      have hm : (x = .storageAccessFailed ∧ ∃ k, fl k = true) ∨ p s.1 = .err x := hm
      rcases hm with hm | hm
      · exact Or.inl hm
      · rw [hm]; exact Or.inr rfl
    | panic =>
      have hm : p s.1 = .panic := hm
      rw [hm]; rfl

theorem allocateF_ref : Ref allocateF (fun c => .ok c.allocate) := fun _ _ => rfl

theorem getNodeF_ref (id : Nat) : Ref (getNodeF id) (fun c => c.getNode id) := by
  intro fl s
  unfold getNodeF
  by_cases hf : fl s.2
  · rw [if_pos hf]; exact Or.inl ⟨rfl, _, hf⟩
  · rw [if_neg hf]
    cases e : s.1.getNode id with
    | ok x => exact e
    | err x => exact Or.inr e
    | panic => exact e

theorem setNodeF_ref (id : Nat) (n : Node) : Ref (setNodeF id n) (fun c => .ok ((), c.setNode id n)) := by
  intro fl s
  unfold setNodeF
  by_cases hf : fl s.2
  · rw [if_pos hf]; exact Or.inl ⟨rfl, _, hf⟩
  · rw [if_neg hf]; rfl

theorem deleteNodeF_ref (id : Nat) : Ref (deleteNodeF id) (fun c => .ok ((), c.deleteNode id)) := by
  intro fl s
  unfold deleteNodeF
  by_cases hf : fl s.2
  · rw [if_pos hf]; exact Or.inl ⟨rfl, _, hf⟩
  · rw [if_neg hf]; rfl

theorem findF_ref : ∀ (d : Bytes) (n : Node), Ref (findF d n) (find d n)
  | d, n => by
    have e1 : find d n = fun c => find d n c := rfl
    rw [e1]
    unfold findF find
    cases hc : n.children with
    | none => exact Ref.pure _
    | some ch =>
      cases d with
      | nil => exact Ref.panic
      | cons b rest =>
        cases hb : ch b with
        | none => simp only [hb]; exact Ref.pure _
        | some id =>
          simp only [hb]
          exact Ref.bind (getNodeF_ref id) (fun child => findF_ref rest child)

theorem buildChainF_ref (path d : Bytes) : ∀ (n id : Nat), Ref (buildChainF path d n id) (buildChain path d n id)
  | 0, id => Ref.pure _
  | i + 1, id => by
    have e1 : buildChain path d (i + 1) id = fun c => buildChain path d (i + 1) id c := rfl
    rw [e1]
    unfold buildChainF buildChain
    cases d[i]? with
    | none => exact Ref.panic
    | some b =>
      exact Ref.bind allocateF_ref (fun id2 => Ref.bind (setNodeF_ref _ _) (fun _ => buildChainF_ref path d i id2))

theorem addLeafF_ref (n : Node) (d path : Bytes) : Ref (addLeafF n d path) (addLeaf n d path) := by
  refine Ref.congr (Ref.bind (Ref.ofRes (diffIndex n.hash d)) (fun idiff =>
    Ref.bind allocateF_ref (fun curId => Ref.bind (setNodeF_ref curId ⟨false, n.hash.drop (idiff + 1), none⟩) (fun _ =>
    Ref.bind allocateF_ref (fun newId => Ref.bind (setNodeF_ref newId ⟨false, d.drop (idiff + 1), none⟩) (fun _ =>
    Ref.bind allocateF_ref (q := fun id c => match d[idiff]?, n.hash[idiff]? with
      | some x, some y =>
        let ch := upd (upd noChildren x (some newId)) y (some curId)
        let c := c.setNode id ⟨true, path ++ d.take idiff, some ch⟩
        buildChain path d idiff id c
      | _, _ => .panic) (fun id => ?_))))))) (fun c => ?_)
  · cases d[idiff]? with
    | none => exact Ref.panic
    | some x =>
      cases n.hash[idiff]? with
      | none => exact Ref.panic
      | some y => exact Ref.bind (setNodeF_ref _ _) (fun _ => buildChainF_ref path d idiff id)
  · unfold addLeaf
    cases (diffIndex n.hash d : Res CacheError Nat) <;> rfl

theorem addF_ref : ∀ (d : Bytes) (n : Node) (path : Bytes), Ref (addF d n path) (add d n path)
  | d, n, path => by
    have e1 : add d n path = fun c => add d n path c := rfl
    rw [e1]
    unfold addF add
    cases hc : n.children with
    | none => exact addLeafF_ref n d path
    | some ch =>
      cases d with
      | nil => exact Ref.panic
      | cons b rest =>
        cases hb : ch b with
        | none =>
          simp only [hb]
          exact Ref.bind allocateF_ref (fun childId => Ref.bind (setNodeF_ref _ _) (fun _ =>
            Ref.bind allocateF_ref (fun id => Ref.bind (setNodeF_ref _ _) (fun _ => Ref.pure id))))
        | some id =>
          simp only [hb]
          exact Ref.bind (getNodeF_ref id) (fun child => Ref.bind (addF_ref rest child _) (fun updated =>
            Ref.bind (setNodeF_ref _ _) (fun _ => Ref.pure id)))

theorem removeFinishF_ref (ch : Children) (nid : Nat) (path : Bytes) :
    Ref (removeFinishF ch nid path) (removeFinish ch nid path) := by
  have e1 : removeFinish ch nid path = fun c => removeFinish ch nid path c := rfl
  rw [e1]
  have hkeep : Ref (keepF ch nid path) (fun c => .ok (nid, c.setNode nid ⟨true, path, some ch⟩)) :=
    Ref.bind (setNodeF_ref _ _) (fun _ => Ref.pure nid)
  unfold removeFinishF removeFinish
  match childList ch with
  | [] => exact hkeep
  | [(i, childId)] =>
    refine Ref.bind (getNodeF_ref childId) (q := fun child c => if child.isLeaf then
        .ok (nid, (c.deleteNode childId).setNode nid ⟨false, i :: child.hash, none⟩)
      else .ok (nid, c.setNode nid ⟨true, path, some ch⟩)) (fun child => ?_)
    cases child.isLeaf with
    | true => exact Ref.bind (deleteNodeF_ref _) (fun _ => Ref.bind (setNodeF_ref _ _) (fun _ => Ref.pure nid))
    | false => exact hkeep
  | _ :: _ :: _ => exact hkeep

theorem removeF_ref : ∀ (d : Bytes) (n : Node) (path : Bytes), Ref (removeF d n path) (remove d n path)
  | [], n, path => Ref.panic
  | b :: rest, n, path => by
    have e1 : remove (b :: rest) n path = fun c => remove (b :: rest) n path c := rfl
    rw [e1]
    unfold removeF remove
    cases hc : n.children with
    | none => exact Ref.panic
    | some ch =>
      cases hb : ch b with
      | none => simp only [hb]; exact Ref.panic
      | some nid =>
        simp only [hb]
        refine Ref.bind (getNodeF_ref nid) (q := fun node c => if node.isLeaf then removeFinish (upd ch b none) nid path c
          else remove rest node (path ++ [b]) c >>= fun x => removeFinish (upd ch b (some x.1)) nid path x.2)
          (fun node => ?_)
        cases node.isLeaf with
        | true => exact removeFinishF_ref _ _ _
        | false => exact Ref.bind (removeF_ref rest node _) (fun updated => removeFinishF_ref _ _ _)

theorem calcChildrenF_ref (rec : Node → FM Node) (rec' : Node → Cache → Res CacheError (Node × Cache))
    (h : ∀ n, Ref (rec n) (rec' n)) : ∀ (l : List (UInt8 × Nat)),
    Ref (calcChildrenF rec l) (fun c => calcChildren rec' l c >>= fun c => .ok ((), c))
  | [] => Ref.pure _
  | (b, id) :: ids => by
    have ih := calcChildrenF_ref rec rec' h ids
    refine Ref.congr (Ref.bind (getNodeF_ref id) (q := fun child c => (if !child.isLeaf && child.dirty then do
          let (child, c) ← rec' child c
          calcChildren rec' ids (c.setNode id child)
        else calcChildren rec' ids c) >>= fun c => .ok ((), c)) (fun child => ?_)) (fun c => ?_)
    · cases !child.isLeaf && child.dirty with
      | false => exact ih
      | true =>
        refine Ref.congr (Ref.bind (h child) (fun child' => Ref.bind (setNodeF_ref id child') (fun _ => ih)))
          (fun c => ?_)
        simp only [if_true]
        cases rec' child c <;> rfl
    · simp only [calcChildren]
      cases c.getNode id <;> rfl

theorem accumulateF_ref : ∀ (l : List (UInt8 × Nat)), Ref (accumulateF l) (accumulate l)
  | [] => Ref.pure _
  | (i, id) :: ids => by
    have e1 : accumulate ((i, id) :: ids) = fun c => accumulate ((i, id) :: ids) c := rfl
    rw [e1]
    unfold accumulateF accumulate
    exact Ref.bind (getNodeF_ref id) (fun child => Ref.bind (accumulateF_ref ids) (fun more => Ref.pure _))

theorem calculateHashF_ref (H : Bytes → Bytes) : ∀ (fuel : Nat) (n : Node),
    Ref (calculateHashF H fuel n) (calculateHash H fuel n)
  | 0, n => Ref.panic
  | fuel + 1, n => by
    have e1 : calculateHash H (fuel + 1) n = fun c => calculateHash H (fuel + 1) n c := rfl
    rw [e1]
    unfold calculateHashF calculateHash
    cases hc : n.children with
    | none => exact Ref.pure _
    | some ch =>
      simp only
      cases hd : n.dirty with
      | false => exact Ref.pure _
      | true =>
        refine Ref.congr (Ref.bind (calcChildrenF_ref _ _ (fun m => calculateHashF_ref H fuel m) (childList ch)) (fun _ =>
          Ref.bind (accumulateF_ref (childList ch)) (fun acc => Ref.pure
            (⟨false, H (UInt8.ofNat n.hash.length :: (n.hash ++ acc)), some ch⟩ : Node)))) (fun c => ?_)
        simp only [Bool.not_true, Bool.false_eq_true, if_false]
        cases calcChildren (calculateHash H fuel) (childList ch) c <;> rfl

end Verif.Trie
