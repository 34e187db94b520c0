import Verif.Model.Consensus
/-!
# Model of `RewardsState` in `src/data/bookkeeping/block.rs`
-/

namespace Verif.Block
open Verif Verif.Consensus

/-- `RewardsState` (block.rs lines 114-138). -/
structure RewardsState where
  feeSink : Bytes
  rewardsPool : Bytes
  level : Nat
  rate : Nat
  residue : Nat
  recalculationRound : Nat
  deriving Repr, DecidableEq

/-- `RewardsState::default()`. -/
def RewardsState.default : RewardsState := ⟨List.replicate 32 0, List.replicate 32 0, 0, 0, 0, 0⟩

/-- The amount that is kept back when the rate is recomputed (block.rs lines 559-569). -/
def maxSpentOver (proto : Params) (residue pool : Nat) : Nat :=
  if proto.pendingResidueRewards then
    match checkedAdd64 proto.minBalance residue with
    | some n => n
    | none => pool
  else proto.minBalance

/-- The recomputation of the rate (block.rs lines 556-587). -/
def refreshRate (s : RewardsState) (nextRound : Nat) (proto : Params) (pool : Nat) : Res Unit RewardsState :=
  if nextRound = s.recalculationRound then do
    let newRate := (checkedAdd64 pool (maxSpentOver proto s.residue pool)).getD 0
    let rate ← divU newRate proto.rewardsRateRefreshInterval
    let round ← addU64 nextRound proto.rewardsRateRefreshInterval
    .ok { s with rate := rate, recalculationRound := round }
  else .ok s

/-- `RewardsState::next_state` (block.rs lines 547-619). -/
def nextState (s : RewardsState) (nextRound : Nat) (proto : Params) (pool totalUnits : Nat) : Res Unit RewardsState := do
  let n ← refreshRate s nextRound proto pool
  if totalUnits = 0 then .ok n
  else match checkedAdd64 s.rate s.residue with
    | none => .ok n
    | some total =>
      match checkedAdd64 s.level (total / totalUnits) with
      | none => .ok n
      | some level => .ok { n with level := level, residue := total % totalUnits }

end Verif.Block
