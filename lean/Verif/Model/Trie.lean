import Verif.Base.Res
/-!
# Model of `src/crypto/merkletrie/{node,cache,storage,trie}.rs`

Simplifications, beyond the conventions of DESIGN.md:

* Node identifiers are unbounded naturals (the Rust counter is a `u64` that is only
  ever incremented; 2^64 allocations are needed to overflow it), and so are the
  numbers written as variable-length integers.
* Both `Storage` implementations are maps from identifiers to byte strings where storing the
  empty string removes the entry (`storage.rs` lines 17-24 and 50-57). The functions of this file
  run on a storage that works; `Verif/Model/TrieFault.lean` has the same functions on a storage whose
  accesses can fail.
* The hash function SHA-512/256 is the parameter `H`.
* `calculate_hash` recurses on a depth budget, the number of node identifiers handed out so far; running out is
  reported as a panic, and C140 shows that it never happens.
-/

namespace Verif.Trie
open Verif

/-- The 256 child indices in iteration order. -/
def allBytes : List UInt8 := (List.range 256).map UInt8.ofNat

/-- `[Option<NodeID>; 256]` (node.rs line 18). -/
abbrev Children := UInt8 → Option Nat

/-- `children[b] = v`. -/
def upd (ch : Children) (b : UInt8) (v : Option Nat) : Children := fun x => if x = b then v else ch x

/-- `[None; 256]`. -/
def noChildren : Children := fun _ => none

/-- `Node` (node.rs lines 13-19). -/
structure Node where
  dirty : Bool
  hash : Bytes
  children : Option Children

/-- `Node::default()`. -/
def Node.default : Node := ⟨false, [], none⟩

/-- `Node::is_leaf` (node.rs lines 23-25). -/
def Node.isLeaf (n : Node) : Bool := n.children.isNone

/-- The present children in index order, as visited by `children.iter().enumerate()`. -/
def childList (ch : Children) : List (UInt8 × Nat) :=
  allBytes.filterMap (fun b => (ch b).map (fun id => (b, id)))

/-! ## Serialisation (node.rs lines 217-257) -/

/-- `write_varint`: little-endian base 128 with continuation bits. -/
def varint (n : Nat) : Bytes :=
  if n < 128 then [UInt8.ofNat n] else UInt8.ofNat (n % 128 + 128) :: varint (n / 128)
termination_by n
decreasing_by omega

/-- `read_varint`: value and the remaining bytes. -/
def readVarint : Bytes → Option (Nat × Bytes)
  | [] => none
  | b :: bs =>
    if b.toNat < 128 then some (b.toNat, bs)
    else match readVarint bs with
      | some (v, rest) => some (b.toNat - 128 + 128 * v, rest)
      | none => none

/-- `Node::serialize` (lines 217-232). -/
def Node.serialize (n : Node) : Bytes :=
  varint n.hash.length ++ n.hash ++
    match n.children with
    | none => [0]
    | some ch => 1 :: (childList ch).flatMap (fun p => p.1 :: varint p.2)

theorem readVarint_length : ∀ (bs : Bytes) (v : Nat) (rest : Bytes),
    readVarint bs = some (v, rest) → rest.length < bs.length
  | [], v, rest, h => by simp [readVarint] at h
  | b :: bs, v, rest, h => by
    simp only [readVarint] at h
    split at h
    · simp only [Option.some.injEq, Prod.mk.injEq] at h; rw [← h.2]; simp
    · split at h
      · rename_i v' rest' hr
        simp only [Option.some.injEq, Prod.mk.injEq] at h
        have := readVarint_length bs v' rest' hr
        rw [← h.2]; simp; omega
      · cases h

/-- The `while` loop of `deserialize` (lines 248-254). -/
def readChildren (ch : Children) (bs : Bytes) : Option Children :=
  match bs with
  | [] => some ch
  | b :: bs =>
    match h : readVarint bs with
    | none => none
    | some (id, rest) => readChildren (upd ch b (some id)) rest
termination_by bs.length
decreasing_by
  have := readVarint_length _ _ _ h
  simp; omega

/-- `Node::deserialize` (lines 235-257). Bytes after a leaf are ignored, as in the source. -/
def deserialize (buf : Bytes) : Option Node :=
  match readVarint buf with
  | none => none
  | some (len, rest) =>
    if rest.length < len then none
    else
      match rest.drop len with
      | [] => none
      | inner :: tail =>
        if inner = 1 then
          match readChildren noChildren tail with
          | none => none
          | some ch => some ⟨false, rest.take len, some ch⟩
        else some ⟨false, rest.take len, none⟩

/-! ## Cache (cache.rs) -/

/-- `CacheError` (cache.rs lines 16-24), without the reason of a failed access. -/
inductive CacheError where
  | missingNode
  | nodeDecodingFailure
  | storageAccessFailed
  deriving Repr, DecidableEq

/-- `MerkleTrieCache` (cache.rs lines 26-31). -/
structure Cache where
  storage : Nat → Option Bytes
  cache : Nat → Option Node
  next : Nat

/-- Point update of a map. -/
def put {α : Type} (f : Nat → Option α) (i : Nat) (v : Option α) : Nat → Option α :=
  fun x => if x = i then v else f x

/-- `store_node` of either storage (storage.rs lines 17-24, 50-57). -/
def storeNode (s : Nat → Option Bytes) (id : Nat) (content : Bytes) : Nat → Option Bytes :=
  put s id (if content.isEmpty then none else some content)

/-- `MerkleTrieCache::new` on an empty storage (cache.rs lines 35-41). -/
def Cache.new : Cache := ⟨fun _ => none, fun _ => none, 0⟩

/-- `allocate_new_node` (cache.rs lines 44-50). -/
def Cache.allocate (c : Cache) : Nat × Cache :=
  (c.next, { c with cache := put c.cache c.next (some Node.default), next := c.next + 1 })

/-- `get_node` (cache.rs lines 54-66): the storage is consulted first, even if the node is cached. -/
def Cache.getNode (c : Cache) (id : Nat) : Res CacheError (Node × Cache) :=
  match c.storage id with
  | none => .err .missingNode
  | some data =>
    match deserialize data with
    | none => .err .nodeDecodingFailure
    | some node =>
      match c.cache id with
      | some n => .ok (n, c)
      | none => .ok (node, { c with cache := put c.cache id (some node) })

/-- `set_node` (cache.rs lines 68-74). -/
def Cache.setNode (c : Cache) (id : Nat) (n : Node) : Cache :=
  { c with cache := put c.cache id (some n), storage := storeNode c.storage id n.serialize }

/-- `delete_node` (cache.rs lines 78-82). -/
def Cache.deleteNode (c : Cache) (id : Nat) : Cache :=
  { c with cache := put c.cache id none, storage := storeNode c.storage id [] }

/-! ## Nodes (node.rs) -/

/-- `Node::find` (node.rs lines 28-38). -/
def find : Bytes → Node → Cache → Res CacheError (Bool × Cache)
  | d, self, c =>
    match self.children with
    | none => .ok (decide (d = self.hash), c)
    | some ch =>
      match d with
      | [] => .panic
      | b :: rest =>
        match ch b with
        | none => .ok (false, c)
        | some childId => do
          let (child, c) ← c.getNode childId
          find rest child c

/-- The loop looking for the first difference (lines 51-54). -/
def diffIndex {ε : Type} : Bytes → Bytes → Res ε Nat
  | a :: as, b :: bs =>
    if a = b then do
      let n ← diffIndex as bs
      pure (n + 1)
    else .ok 0
  | _, _ => .panic

/-- The loop building single-child parents (lines 75-85), for `i = n-1, ..., 0`. -/
def buildChain (path d : Bytes) : Nat → Nat → Cache → Res CacheError (Nat × Cache)
  | 0, id, c => .ok (id, c)
  | i + 1, id, c =>
    match d[i]? with
    | none => .panic
    | some b =>
      let (id2, c) := c.allocate
      let c := c.setNode id2 ⟨true, path ++ d.take i, some (upd noChildren b (some id))⟩
      buildChain path d i id2 c

/-- `Node::add` on a leaf (lines 49-87). -/
def addLeaf (self : Node) (d path : Bytes) (c : Cache) : Res CacheError (Nat × Cache) := do
  let idiff ← diffIndex self.hash d
  let (curId, c) := c.allocate
  let c := c.setNode curId ⟨false, self.hash.drop (idiff + 1), none⟩
  let (newId, c) := c.allocate
  let c := c.setNode newId ⟨false, d.drop (idiff + 1), none⟩
  let (id, c) := c.allocate
  match d[idiff]?, self.hash[idiff]? with
  | some x, some y =>
    let ch := upd (upd noChildren x (some newId)) y (some curId)
    let c := c.setNode id ⟨true, path ++ d.take idiff, some ch⟩
    buildChain path d idiff id c
  | _, _ => .panic

/-- `Node::add` (lines 42-114). -/
def add : Bytes → Node → Bytes → Cache → Res CacheError (Nat × Cache)
  | d, self, path, c =>
    match self.children with
    | none => addLeaf self d path c
    | some ch =>
      match d with
      | [] => .panic
      | b :: rest =>
        match ch b with
        | none =>
          let (childId, c) := c.allocate
          let c := c.setNode childId ⟨false, rest, none⟩
          let (id, c) := c.allocate
          .ok (id, c.setNode id ⟨true, path, some (upd ch b (some childId))⟩)
        | some curId => do
          let (child, c) ← c.getNode curId
          let (updated, c) ← add rest child (path ++ [b]) c
          -- the child's identifier now holds the updated parent (lines 106-112)
          pure (curId, c.setNode curId ⟨true, path, some (upd ch b (some updated))⟩)

/-- End of `Node::remove` (lines 183-213): collapse a single leaf child, store at `nid`. -/
def removeFinish (ch : Children) (nid : Nat) (path : Bytes) (c : Cache) :
    Res CacheError (Nat × Cache) :=
  let keep (c : Cache) : Res CacheError (Nat × Cache) :=
    .ok (nid, c.setNode nid ⟨true, path, some ch⟩)
  match childList ch with
  | [(i, childId)] => do
    let (child, c) ← c.getNode childId
    if child.isLeaf then
      let c := c.deleteNode childId
      .ok (nid, c.setNode nid ⟨false, i :: child.hash, none⟩)
    else keep c
  | _ => keep c

/-- `Node::remove` (lines 164-214). -/
def remove : Bytes → Node → Bytes → Cache → Res CacheError (Nat × Cache)
  | [], _, _, _ => .panic
  | b :: rest, self, path, c =>
    match self.children with
    | none => .panic
    | some ch =>
      match ch b with
      | none => .panic
      | some nid => do
        let (node, c) ← c.getNode nid
        if node.isLeaf then removeFinish (upd ch b none) nid path c
        else do
          let (updated, c) ← remove rest node (path ++ [b]) c
          removeFinish (upd ch b (some updated)) nid path c

/-- First loop of `calculate_hash` (lines 127-133) over the child identifiers; `rec` is the
recursive call. -/
def calcChildren (rec : Node → Cache → Res CacheError (Node × Cache)) :
    List (UInt8 × Nat) → Cache → Res CacheError Cache
  | [], c => .ok c
  | (_, id) :: ids, c => do
    let (child, c) ← c.getNode id
    if !child.isLeaf && child.dirty then do
      let (child, c) ← rec child c
      calcChildren rec ids (c.setNode id child)
    else calcChildren rec ids c

/-- Second loop of `calculate_hash` (lines 142-154): what is appended per child. -/
def accumulate : List (UInt8 × Nat) → Cache → Res CacheError (Bytes × Cache)
  | [], c => .ok ([], c)
  | (i, id) :: ids, c => do
    let (child, c) ← c.getNode id
    let (more, c) ← accumulate ids c
    pure ((if child.isLeaf then 0 else 1) :: UInt8.ofNat child.hash.length :: i :: (child.hash ++ more), c)

/-- `Node::calculate_hash` (lines 117-160). -/
def calculateHash (H : Bytes → Bytes) : Nat → Node → Cache → Res CacheError (Node × Cache)
  | 0, _, _ => .panic
  | fuel + 1, self, c =>
    match self.children with
    | none => .ok (self, c)
    | some ch =>
      if !self.dirty then .ok (self, c)
      else do
        let c ← calcChildren (calculateHash H fuel) (childList ch) c
        let (acc, c) ← accumulate (childList ch) c
        pure (⟨false, H (UInt8.ofNat self.hash.length :: (self.hash ++ acc)), some ch⟩, c)

/-! ## Trie (trie.rs) -/

/-- `TrieError` (trie.rs lines 23-39), the variants that are produced. -/
inductive TrieError where
  | elementLengthMismatch
  | cacheAccess (e : CacheError)
  deriving Repr, DecidableEq

/-- `Trie` (trie.rs lines 42-48). -/
structure Trie where
  root : Option Nat
  cache : Cache
  elementLength : Nat

/-- The `?` conversion of cache errors. -/
def liftE {α : Type} : Res CacheError α → Res TrieError α
  | .ok a => .ok a
  | .err e => .err (.cacheAccess e)
  | .panic => .panic

/-- `Trie::new` on an empty storage (lines 52-58). -/
def Trie.new : Trie := ⟨none, Cache.new, 0⟩

/-- `Trie::new` on any storage (lines 52-58, cache.rs lines 35-41): the storage is not read. -/
def Trie.newOn (storage : Nat → Option Bytes) : Trie := ⟨none, ⟨storage, fun _ => none, 0⟩, 0⟩

/-- `Trie::root_hash` (lines 61-74). -/
def Trie.rootHash (H : Bytes → Bytes) (t : Trie) : Res TrieError (Bytes × Trie) :=
  match t.root with
  | none => .ok (List.replicate 32 0, t)
  | some rootId => do
    let (root, c) ← liftE (t.cache.getNode rootId)
    let (root, c) ← liftE (calculateHash H t.cache.next root c)
    let c := c.setNode rootId root
    let t := { t with cache := c }
    if root.isLeaf then .ok (H (0 :: root.hash), t) else .ok (H (1 :: root.hash), t)

/-- `Trie::add` (lines 78-107). An error carries no state; C01 shows no error is ever returned. -/
def Trie.add (t : Trie) (d : Bytes) : Res TrieError (Bool × Trie) :=
  match t.root with
  | none =>
    let (id, c) := t.cache.allocate
    let c := c.setNode id ⟨false, d, none⟩
    .ok (true, ⟨some id, c, d.length % u32Lim⟩)
  | some rootId => do
    let (pnode, c) ← liftE (t.cache.getNode rootId)
    let (found, c) ← liftE (find d pnode c)
    if found then .ok (false, { t with cache := c })
    else do
      let (newRoot, c) ← liftE (Verif.Trie.add d pnode [] c)
      .ok (true, { t with cache := c.deleteNode rootId, root := some newRoot })

/-- `Trie::delete` (lines 111-142). The length error is returned before anything is written (the
caller keeps `t`); C01 shows that no other error is ever returned. -/
def Trie.delete (t : Trie) (d : Bytes) : Res TrieError (Bool × Trie) :=
  match t.root with
  | none => .ok (false, t)
  | some rootId =>
    if d.length ≠ t.elementLength then .err .elementLengthMismatch
    else do
      let (pnode, c) ← liftE (t.cache.getNode rootId)
      let (found, c) ← liftE (find d pnode c)
      if !found then .ok (false, { t with cache := c })
      else if pnode.isLeaf then
        .ok (true, ⟨none, c.deleteNode rootId, 0⟩)
      else do
        let (newRoot, c) ← liftE (remove d pnode [] c)
        .ok (true, { t with cache := c.deleteNode rootId, root := some newRoot })

end Verif.Trie
