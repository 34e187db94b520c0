import Verif.Model.Trie
/-!
# Model of `src/crypto/merkletrie/{node,cache,trie}.rs` on a storage whose accesses can fail

The same functions as in `Verif/Model/Trie.lean`, with the state kept when a function returns early
(`?`) or panics. Which accesses fail is given by `fl : Nat → Bool`: the access numbered `k`, counting
the calls of `load_node` and `store_node` from the start of the operation, returns an error if `fl k`.

Simplification: a failed `store_node` leaves the stored contents as they were (sled applies an insert
or remove or reports an error).
-/

namespace Verif.Trie
open Verif

/-- The cache with its storage, and the number of storage accesses made so far. -/
abbrev FState := Cache × Nat

/-- A function that works on the cache: the outcome, and the state it leaves behind. -/
def FM (α : Type) : Type := (Nat → Bool) → FState → Res CacheError α × FState

/-- Sequencing: the `?` operator and panics stop the function and keep the state. -/
def FM.bind {α β : Type} (m : FM α) (k : α → FM β) : FM β := fun fl s =>
  match m fl s with
  | (.ok a, s') => k a fl s'
  | (.err e, s') => (.err e, s')
  | (.panic, s') => (.panic, s')

instance : Monad FM where
  pure a := fun _ s => (.ok a, s)
  bind := FM.bind

/-- A panic. -/
def FM.panic {α : Type} : FM α := fun _ s => (.panic, s)

/-- An outcome that does not touch the state. -/
def FM.ofRes {α : Type} (r : Res CacheError α) : FM α := fun _ s => (r, s)

/-- `allocate_new_node` (cache.rs lines 44-50): no storage access. -/
def allocateF : FM Nat := fun _ s => (.ok s.1.allocate.1, (s.1.allocate.2, s.2))

/-- `get_node` (cache.rs lines 54-66): one load, then as on a working storage. -/
def getNodeF (id : Nat) : FM Node := fun fl s =>
  if fl s.2 then (.err .storageAccessFailed, (s.1, s.2 + 1))
  else
    match s.1.getNode id with
    | .ok (n, c) => (.ok n, (c, s.2 + 1))
    | .err e => (.err e, (s.1, s.2 + 1))
    | .panic => (.panic, (s.1, s.2 + 1))

/-- `set_node` (cache.rs lines 68-74): the cached copy is replaced before the store is attempted. -/
def setNodeF (id : Nat) (n : Node) : FM Unit := fun fl s =>
  if fl s.2 then (.err .storageAccessFailed, ({ s.1 with cache := put s.1.cache id (some n) }, s.2 + 1))
  else (.ok (), (s.1.setNode id n, s.2 + 1))

/-- `delete_node` (cache.rs lines 78-82): the cached copy is dropped before the store is attempted. -/
def deleteNodeF (id : Nat) : FM Unit := fun fl s =>
  if fl s.2 then (.err .storageAccessFailed, ({ s.1 with cache := put s.1.cache id none }, s.2 + 1))
  else (.ok (), (s.1.deleteNode id, s.2 + 1))

/-- `Node::find` (node.rs lines 28-38). -/
def findF : Bytes → Node → FM Bool
  | d, self =>
    match self.children with
    | none => pure (decide (d = self.hash))
    | some ch =>
      match d with
      | [] => FM.panic
      | b :: rest =>
        match ch b with
        | none => pure false
        | some childId => do
          let child ← getNodeF childId
          findF rest child

/-- The loop building single-child parents (node.rs lines 75-85). -/
def buildChainF (path d : Bytes) : Nat → Nat → FM Nat
  | 0, id => pure id
  | i + 1, id =>
    match d[i]? with
    | none => FM.panic
    | some b => do
      let id2 ← allocateF
      setNodeF id2 ⟨true, path ++ d.take i, some (upd noChildren b (some id))⟩
      buildChainF path d i id2

/-- `Node::add` on a leaf (node.rs lines 49-87). -/
def addLeafF (self : Node) (d path : Bytes) : FM Nat := do
  let idiff ← FM.ofRes (diffIndex self.hash d)
  let curId ← allocateF
  setNodeF curId ⟨false, self.hash.drop (idiff + 1), none⟩
  let newId ← allocateF
  setNodeF newId ⟨false, d.drop (idiff + 1), none⟩
  let id ← allocateF
  match d[idiff]?, self.hash[idiff]? with
  | some x, some y => do
    setNodeF id ⟨true, path ++ d.take idiff, some (upd (upd noChildren x (some newId)) y (some curId))⟩
    buildChainF path d idiff id
  | _, _ => FM.panic

/-- `Node::add` (node.rs lines 42-114). -/
def addF : Bytes → Node → Bytes → FM Nat
  | d, self, path =>
    match self.children with
    | none => addLeafF self d path
    | some ch =>
      match d with
      | [] => FM.panic
      | b :: rest =>
        match ch b with
        | none => do
          let childId ← allocateF
          setNodeF childId ⟨false, rest, none⟩
          let id ← allocateF
          setNodeF id ⟨true, path, some (upd ch b (some childId))⟩
          pure id
        | some curId => do
          let child ← getNodeF curId
          let updated ← addF rest child (path ++ [b])
          setNodeF curId ⟨true, path, some (upd ch b (some updated))⟩
          pure curId

/-- The end of `Node::remove` when the node stays an inner node (node.rs lines 207-213). -/
def keepF (ch : Children) (nid : Nat) (path : Bytes) : FM Nat := do
  setNodeF nid ⟨true, path, some ch⟩
  pure nid

/-- End of `Node::remove` (node.rs lines 183-213). -/
def removeFinishF (ch : Children) (nid : Nat) (path : Bytes) : FM Nat :=
  match childList ch with
  | [(i, childId)] => do
    let child ← getNodeF childId
    if child.isLeaf then do
      deleteNodeF childId
      setNodeF nid ⟨false, i :: child.hash, none⟩
      pure nid
    else keepF ch nid path
  | _ => keepF ch nid path

/-- `Node::remove` (node.rs lines 164-214). -/
def removeF : Bytes → Node → Bytes → FM Nat
  | [], _, _ => FM.panic
  | b :: rest, self, path =>
    match self.children with
    | none => FM.panic
    | some ch =>
      match ch b with
      | none => FM.panic
      | some nid => do
        let node ← getNodeF nid
        if node.isLeaf then removeFinishF (upd ch b none) nid path
        else do
          let updated ← removeF rest node (path ++ [b])
          removeFinishF (upd ch b (some updated)) nid path

/-- First loop of `calculate_hash` (node.rs lines 127-133). -/
def calcChildrenF (rec : Node → FM Node) : List (UInt8 × Nat) → FM Unit
  | [] => pure ()
  | (_, id) :: ids => do
    let child ← getNodeF id
    if !child.isLeaf && child.dirty then do
      let child ← rec child
      setNodeF id child
      calcChildrenF rec ids
    else calcChildrenF rec ids

/-- Second loop of `calculate_hash` (node.rs lines 142-154). -/
def accumulateF : List (UInt8 × Nat) → FM Bytes
  | [] => pure []
  | (i, id) :: ids => do
    let child ← getNodeF id
    let more ← accumulateF ids
    pure ((if child.isLeaf then 0 else 1) :: UInt8.ofNat child.hash.length :: i :: (child.hash ++ more))

/-- `Node::calculate_hash` (node.rs lines 117-160). -/
def calculateHashF (H : Bytes → Bytes) : Nat → Node → FM Node
  | 0, _ => FM.panic
  | fuel + 1, self =>
    match self.children with
    | none => pure self
    | some ch =>
      if !self.dirty then pure self
      else do
        calcChildrenF (calculateHashF H fuel) (childList ch)
        let acc ← accumulateF (childList ch)
        pure ⟨false, H (UInt8.ofNat self.hash.length :: (self.hash ++ acc)), some ch⟩

/-- The `?` conversion at the end of a trie function; the trie keeps its root and the cache as left. -/
def Trie.stop {α : Type} (t : Trie) : Res CacheError α × FState → (α → FState → Res TrieError β × Trie) →
    Res TrieError β × Trie
  | (.ok a, s), k => k a s
  | (.err e, s), _ => (.err (.cacheAccess e), { t with cache := s.1 })
  | (.panic, s), _ => (.panic, { t with cache := s.1 })

/-- The cache accesses of `Trie::root_hash` (trie.rs lines 65-67). -/
def hashBody (H : Bytes → Bytes) (budget rootId : Nat) : FM Node := do
  let root ← getNodeF rootId
  let root ← calculateHashF H budget root
  setNodeF rootId root
  pure root

/-- `Trie::root_hash` (trie.rs lines 61-74). -/
def Trie.rootHashF (H : Bytes → Bytes) (fl : Nat → Bool) (t : Trie) : Res TrieError Bytes × Trie :=
  match t.root with
  | none => (.ok (List.replicate 32 0), t)
  | some rootId =>
    t.stop (hashBody H t.cache.next rootId fl (t.cache, 0)) fun root s =>
      (.ok (if root.isLeaf then H (0 :: root.hash) else H (1 :: root.hash)), { t with cache := s.1 })

/-- The cache accesses of `Trie::add` on a non-empty trie (trie.rs lines 89-97): the new root, if any. -/
def addBody (d : Bytes) (rootId : Nat) : FM (Option Nat) := do
  let pnode ← getNodeF rootId
  let found ← findF d pnode
  if found then pure none
  else do
    let newRoot ← addF d pnode []
    deleteNodeF rootId
    pure (some newRoot)

/-- `Trie::add` (trie.rs lines 78-107). On an empty trie the root is set first, and a failed store
panics (`unwrap`, line 84) before the element length is set. -/
def Trie.addF (fl : Nat → Bool) (t : Trie) (d : Bytes) : Res TrieError Bool × Trie :=
  match t.root with
  | none =>
    match setNodeF t.cache.allocate.1 ⟨false, d, none⟩ fl (t.cache.allocate.2, 0) with
    | (.ok _, s) => (.ok true, ⟨some t.cache.allocate.1, s.1, d.length % u32Lim⟩)
    | (_, s) => (.panic, ⟨some t.cache.allocate.1, s.1, t.elementLength⟩)
  | some rootId =>
    t.stop (addBody d rootId fl (t.cache, 0)) fun r s =>
      match r with
      | none => (.ok false, { t with cache := s.1 })
      | some newRoot => (.ok true, { t with cache := s.1, root := some newRoot })

/-- What `Trie::delete` does with the node table. -/
inductive Deleted where
  | absent
  | emptied
  | replaced (root : Nat)

/-- The cache accesses of `Trie::delete` (trie.rs lines 117-136). -/
def deleteBody (d : Bytes) (rootId : Nat) : FM Deleted := do
  let pnode ← getNodeF rootId
  let found ← findF d pnode
  if !found then pure .absent
  else if pnode.isLeaf then do
    deleteNodeF rootId
    pure .emptied
  else do
    let newRoot ← removeF d pnode []
    deleteNodeF rootId
    pure (.replaced newRoot)

/-- `Trie::delete` (trie.rs lines 111-142). -/
def Trie.deleteF (fl : Nat → Bool) (t : Trie) (d : Bytes) : Res TrieError Bool × Trie :=
  match t.root with
  | none => (.ok false, t)
  | some rootId =>
    if d.length ≠ t.elementLength then (.err .elementLengthMismatch, t)
    else
      t.stop (deleteBody d rootId fl (t.cache, 0)) fun r s =>
        match r with
        | .absent => (.ok false, { t with cache := s.1 })
        | .emptied => (.ok true, ⟨none, s.1, 0⟩)
        | .replaced newRoot => (.ok true, { t with cache := s.1, root := some newRoot })

end Verif.Trie
