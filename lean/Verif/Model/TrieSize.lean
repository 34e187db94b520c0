import Verif.Model.Trie
/-!
# Model of the sizes in `src/crypto/merkletrie/{storage,trie,node}.rs`
-/

namespace Verif.Trie
open Verif

/-- `MAX_NODE_SERIALIZED_SIZE` (trie.rs line 15). -/
def maxNodeSerializedSize : Nat := 3000

/-- `InMemoryStorage::current_storage_size` (storage.rs lines 67-74): `ids` are the keys of the map in the order in which it
yields them. The printed line is left out. -/
def currentStorageSize (storage : Nat → Option Bytes) (ids : List Nat) : Nat :=
  (ids.map fun i => ((storage i).getD []).length).sum

/-- `current_storage_size` of `sled::Tree` (storage.rs lines 37-39). -/
def sledStorageSize (_storage : Nat → Option Bytes) : Nat := 0

/-- The loop of `get_child_count` (node.rs lines 264-269). -/
def countSome : List (Option Nat) → Nat
  | [] => 0
  | none :: l => countSome l
  | some _ :: l => countSome l + 1

/-- `Node::get_child_count` (node.rs lines 259-271). -/
def Node.getChildCount (n : Node) : Nat :=
  match n.children with
  | none => 0
  | some ch => countSome (allBytes.map ch)

end Verif.Trie
