import Verif.Model.Codec
import Mathlib.Data.List.Forall2
/-!
# Model of `ApplyData` (`src/data/transactions/{transaction,teal}.rs`) and its encoding

A `HashMap` is the list of its entries in the order in which the map yields them. That order is chosen by the hasher of
the map, which `std` seeds at random, so two lists that are permutations of each other stand for equal values
(`ApplyData.Same`).
-/

namespace Verif.Codec
open Verif Verif.Msgpack Verif.Tx Verif.Block Verif.HashId

/-- The parts of `ApplyData` (transaction.rs lines 119-138) and `EvalDelta` (transactions/teal.rs lines 13-27) other than
the inner transactions. -/
structure AdFlat where
  closingAmount : Nat
  assetClosingAmount : Nat
  senderRewards : Nat
  receiverRewards : Nat
  closeRewards : Nat
  globalDelta : List (Bytes × Teal.ValueDelta)
  localDeltas : List (Nat × List (Bytes × Teal.ValueDelta))
  logs : List Bytes
  configAsset : Nat
  applicationId : Nat
  deriving Repr, DecidableEq

/-- The all-zero `AdFlat`. -/
def AdFlat.default : AdFlat := ⟨0, 0, 0, 0, 0, [], [], [], 0, 0⟩

mutual
/-- `ApplyData` (transaction.rs lines 119-138). -/
inductive ApplyData where
  | mk (flat : AdFlat) (inner : InnerTxs)
/-- `Vec<SignedTxWithAD>` (transactions/teal.rs line 26). -/
inductive InnerTxs where
  | nil
  | cons (tx : SignedTx) (ad : ApplyData) (rest : InnerTxs)
end

/-- `ApplyData::default()`. -/
def ApplyData.default : ApplyData := .mk .default .nil

/-- `is_default` (signed_tx.rs lines 11-13). -/
def ApplyData.isDefault : ApplyData → Bool
  | .mk f .nil => f = .default
  | .mk _ (.cons _ _ _) => false

/-- The variant names of `DeltaAction` (basics/teal.rs lines 15-24). -/
def actionName : Teal.DeltaAction → List Char
  | .setBytes => ['S', 'e', 't', 'B', 'y', 't', 'e', 's']
  | .setUint => ['S', 'e', 't', 'U', 'i', 'n', 't']
  | .delete => ['D', 'e', 'l', 'e', 't', 'e']

/-- `ValueDelta` (basics/teal.rs lines 27-32). -/
def valueDeltaMP (d : Teal.ValueDelta) : MP := .arr [strLit (actionName d.action), bytesArr d.bytes, .uint d.uint]

/-- `StateDelta`, a newtype of a map (basics/teal.rs lines 46-48). -/
def stateDeltaMP (l : List (Bytes × Teal.ValueDelta)) : MP := .map (l.flatMap fun e => [.str e.1, valueDeltaMP e.2])

/-- `EvalDelta::local_deltas` (transactions/teal.rs line 19). -/
def localDeltasMP (l : List (Nat × List (Bytes × Teal.ValueDelta))) : MP :=
  .map (l.flatMap fun e => [.uint e.1, stateDeltaMP e.2])

/-- The fields of `ApplyData`, given the inner transactions. -/
def adWith (f : AdFlat) (inner : List MP) : MP :=
  .arr [.uint f.closingAmount, .uint f.assetClosingAmount, .uint f.senderRewards, .uint f.receiverRewards,
    .uint f.closeRewards,
    .arr [stateDeltaMP f.globalDelta, localDeltasMP f.localDeltas, .arr (f.logs.map .str), .arr inner],
    .uint f.configAsset, .uint f.applicationId]

mutual
/-- `ApplyData`. -/
def adMP : ApplyData → MP
  | .mk f inner => adWith f (innerMP inner)
/-- The inner transactions, each a `SignedTxWithAD`. -/
def innerMP : InnerTxs → List MP
  | .nil => []
  | .cons tx ad rest => .arr (stxMP tx :: (if ad.isDefault then [] else [adMP ad])) :: innerMP rest
end

/-- The codec of `ApplyData`. -/
def adCodec : AdCodec ApplyData := ⟨adMP, ApplyData.isDefault⟩

/-- Equality of the map values: the same entries, in any order. -/
def SameDelta (a b : List (Bytes × Teal.ValueDelta)) : Prop := a.Perm b

/-- The `==` of `AdFlat` when maps are compared as maps. -/
def AdFlat.Same (a b : AdFlat) : Prop :=
  a.closingAmount = b.closingAmount ∧ a.assetClosingAmount = b.assetClosingAmount ∧ a.senderRewards = b.senderRewards ∧
  a.receiverRewards = b.receiverRewards ∧ a.closeRewards = b.closeRewards ∧ SameDelta a.globalDelta b.globalDelta ∧
  (∃ l, l.Perm b.localDeltas ∧ List.Forall₂ (fun x y => x.1 = y.1 ∧ SameDelta x.2 y.2) a.localDeltas l) ∧
  a.logs = b.logs ∧ a.configAsset = b.configAsset ∧ a.applicationId = b.applicationId

mutual
/-- The derived `==` of `ApplyData`. -/
def ApplyData.Same : ApplyData → ApplyData → Prop
  | .mk f i, .mk g j => f.Same g ∧ i.Same j
/-- The derived `==` of the inner transactions. -/
def InnerTxs.Same : InnerTxs → InnerTxs → Prop
  | .nil, .nil => True
  | .cons t a r, .cons t' a' r' => t = t' ∧ a.Same a' ∧ r.Same r'
  | _, _ => False
end

end Verif.Codec
