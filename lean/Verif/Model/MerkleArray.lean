import Verif.Base.Res
import Verif.Model.HashId
/-!
# Model of `src/crypto/merklearray/{layer,merkle,partial}.rs`

* Digests are byte strings; `H` is SHA-512/256. An object to be hashed is given by the pair that
  `Hashable::to_be_hashed` returns.
* `par_iter`/`par_chunks` are data-parallel maps and are modelled as maps.
* `Tree::from_block` is `from_array` with other leaves; it is in `Verif/Model/Block.lean` (`merkleLeaves`, `paysetCommit`).
* The claimed elements of `verify` are a `HashMap`; the model takes its entries as a list without
  repeated positions, in any order.
-/

namespace Verif.MerkleArray
open Verif Verif.HashId

/-- `CryptoHash([0; 32])`. -/
def zeroHash : Bytes := List.replicate 32 0

/-- The string hashed for an inner node: `Pair::to_be_hashed` (layer.rs lines 39-46) with its tag. -/
def pairRep (l r : Bytes) : Bytes := hashRep ⟨.merkleArrayNode, l ++ r⟩

/-- `hash_obj(&Pair { l, r })`. -/
def hashPair (H : Bytes → Bytes) (l r : Bytes) : Bytes := H (pairRep l r)

/-- `Layer::up` (layer.rs lines 23-36). -/
def layerUp (H : Bytes → Bytes) : List Bytes → List Bytes
  | [] => []
  | [a] => [hashPair H a zeroHash]
  | a :: b :: rest => hashPair H a b :: layerUp H rest

theorem layerUp_length (H : Bytes → Bytes) : ∀ l : List Bytes, (layerUp H l).length = (l.length + 1) / 2
  | [] => rfl
  | [_] => by simp [layerUp]
  | _ :: _ :: rest => by simp [layerUp, layerUp_length H rest]; omega

/-- The `while` loop of `from_array` (merkle.rs lines 30-32): the given layer and all above it. -/
def levelsFrom (H : Bytes → Bytes) (layer : List Bytes) : List (List Bytes) :=
  if layer.length ≤ 1 then [layer] else layer :: levelsFrom H (layerUp H layer)
termination_by layer.length
decreasing_by rw [layerUp_length]; omega

/-- `Tree::from_array` (merkle.rs lines 23-35). -/
def fromArray (H : Bytes → Bytes) (array : List ToBeHashed) : List (List Bytes) :=
  levelsFrom H (array.map (hashObj H))

/-- `Tree::root` (lines 70-77); indexing an empty vector panics. -/
def root (levels : List (List Bytes)) : Res Unit Bytes := do
  let l0 ← Res.ofOption levels[0]?
  if l0.isEmpty then pure zeroHash
  else do
    let top ← Res.ofOption levels.getLast?
    Res.ofOption top[0]?

/-- `LayerItem` (partial.rs lines 23-27). -/
structure Item where
  pos : Nat
  hash : Bytes
  deriving Repr, DecidableEq

/-- `Siblings` (partial.rs lines 13-17). -/
structure Siblings where
  levels : List (List Bytes)
  hints : List Bytes

/-- `Siblings::get` (partial.rs lines 31-54). -/
def Siblings.get (s : Siblings) (l i : Nat) : Res Unit (Bytes × Siblings) :=
  if s.levels.isEmpty then
    match s.hints with
    | h :: rest => .ok (h, { s with hints := rest })
    | [] => .err ()
  else
    match s.levels[l]? with
    | none => .err ()
    | some layer =>
      let res := (layer[i]?).getD zeroHash
      .ok (res, { s with hints := s.hints ++ [res] })

/-- The hash of the parent (partial.rs lines 83-100). -/
def parentHash (H : Bytes → Bytes) (doHash : Bool) (pos : Nat) (hash sibling : Bytes) : Bytes :=
  if doHash then
    (if pos % 2 = 0 then hashPair H hash sibling else hashPair H sibling hash)
  else zeroHash

/-- `PartialLayer::up` (partial.rs lines 64-109). -/
def up (H : Bytes → Bytes) (l : Nat) (doHash : Bool) : List Item → Siblings → Res Unit (List Item × Siblings)
  | [], s => .ok ([], s)
  | [x], s => do
    let (sib, s) ← s.get l (x.pos ^^^ 1)
    pure ([⟨x.pos / 2, parentHash H doHash x.pos x.hash sib⟩], s)
  | x :: y :: rest, s =>
    if y.pos = x.pos ^^^ 1 then do
      let (more, s) ← up H l doHash rest s
      pure (⟨x.pos / 2, parentHash H doHash x.pos x.hash y.hash⟩ :: more, s)
    else do
      let (sib, s) ← s.get l (x.pos ^^^ 1)
      let (more, s) ← up H l doHash (y :: rest) s
      pure (⟨x.pos / 2, parentHash H doHash x.pos x.hash sib⟩ :: more, s)

/-- The collection loop of `prove` (merkle.rs lines 95-112); `acc` is in order. -/
def collect (leaves : List Bytes) : List Nat → List Item → Res Unit (List Item)
  | [], acc => .ok acc
  | pos :: rest, acc =>
    match leaves[pos]? with
    | none => .err ()
    | some h =>
      if (acc.getLast?).map Item.pos = some pos then collect leaves rest acc
      else collect leaves rest (acc ++ [⟨pos, h⟩])

/-- The loop `for l in 0..levels.len() - 1` of `prove` (lines 119-121): `n` rounds starting at level
`l`, without hashing. -/
def proveLoop (H : Bytes → Bytes) : Nat → Nat → List Item → Siblings → Res Unit (List Item × Siblings)
  | 0, _, pl, s => .ok (pl, s)
  | n + 1, l, pl, s => do
    let (pl, s) ← up H l false pl s
    proveLoop H n (l + 1) pl s

/-- `Tree::prove` (merkle.rs lines 80-137). -/
def prove (H : Bytes → Bytes) (levels : List (List Bytes)) (idxs : List Nat) : Res Unit (List Bytes) :=
  if idxs.isEmpty then .ok []
  else
    match levels with
    | [] => .err ()
    | leaves :: _ => do
      let pl ← collect leaves (idxs.mergeSort (fun a b => decide (a ≤ b))) []
      let (pl, s) ← proveLoop H (levels.length - 1) 0 pl ⟨levels, []⟩
      if pl.length ≠ 1 then .err () else .ok s.hints

/-- The caller's list after `Tree::prove` (`idxs: &mut Vec<u64>`, sorted in place: merkle.rs lines 83-93); a refusal
after the sort leaves it sorted too. -/
def proveIdxs (levels : List (List Bytes)) (idxs : List Nat) : List Nat :=
  if idxs.isEmpty then idxs
  else if levels.isEmpty then idxs
  else idxs.mergeSort (fun a b => decide (a ≤ b))

/-- The loop of `verify` (merkle.rs lines 168-177). `k` counts down from `MAX_HEIGHT`; the number of
rounds is also returned. -/
def verifyLoop (H : Bytes → Bytes) : Nat → Nat → List Item → List Bytes → Res Unit (Nat × List Item)
  | k, l, pl, hints =>
    if !hints.isEmpty || decide (pl.length > 1) then
      match up H l true pl ⟨[], hints⟩ with
      | .ok (pl, s) =>
        match k with
        | 0 => .err ()
        | k + 1 => verifyLoop H k (l + 1) pl s.hints
      | .err e => .err e
      | .panic => .panic
    else .ok (l, pl)

/-- `Tree::verify` (merkle.rs lines 141-186). -/
def verify (H : Bytes → Bytes) (root : Bytes) (elems : List (Nat × Bytes)) (proof : List Bytes) : Res Unit Unit :=
  if elems.isEmpty then
    (if proof.isEmpty then .ok () else .err ())
  else do
    let pl := (elems.map (fun e => Item.mk e.1 e.2)).mergeSort (fun a b => decide (a.pos ≤ b.pos))
    let (_, pl) ← verifyLoop H 64 0 pl proof
    match pl with
    | [] => .panic
    | top :: _ => if top.pos ≠ 0 ∨ top.hash ≠ root then .err () else .ok ()

end Verif.MerkleArray
