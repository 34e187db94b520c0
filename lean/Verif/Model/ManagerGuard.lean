import Verif.Model.OtsGuard
import Verif.Model.Account
/-!
# Model of `src/data/account.rs` and `src/data/account_manager.rs`: deletions that crash

`delete_old_keys` of a participation and of the account manager on key sets with a lock (`Verif/Model/OtsGuard.lean`). The
lock of the manager (`self.mu.lock()`, kept without looking at it) does not matter after a crash. A hash map that is not
changed is iterated in the same order each time; the list of entries is in that order.
-/

namespace Verif.Account
open Verif Verif.Ots Verif.Multisig Verif.Msgpack

/-- `Participation` (account.rs lines 38-54) with the lock of its voting keys. -/
structure GuardedPart (S : Scheme) where
  part : Participation S
  poisoned : Bool

/-- `Participation::delete_old_keys` (account.rs lines 205-222): whether it returned, the inserts, and what it left. -/
def deleteOldKeysG {S : Scheme} (E : Enc) (K : Keys S) (p : GuardedPart S) (current defaultDilution : Nat)
    (rnd : Nat → Option S.Sk) : Bool × List (Name × Bytes) × GuardedPart S :=
  let dilution := if p.part.keyDilution = 0 then defaultDilution else p.part.keyDilution
  match (roundId current dilution : Res Unit Ident) with
  | .ok id =>
    match deleteG E ⟨p.part.voting, p.poisoned⟩ id dilution rnd with
    | (.ok _, g) =>
      (true, [(.voting, enc (secretsMP K (snapshotG g).st))], ⟨{ p.part with voting := g.st }, g.poisoned⟩)
    | (_, g) => (false, [], ⟨{ p.part with voting := g.st }, g.poisoned⟩)
  | _ => (false, [], p)

/-- The loop of `AccountManager::delete_old_keys` (account_manager.rs lines 109-147): a crash ends it. -/
def deleteLoopG {S : Scheme} (E : Enc) (K : Keys S) (header : Block.HeaderBody) (ccSigs : Bytes → Option Nat)
    (certRounds defaultDilution : Nat) (rnd : Identity → Nat → Option S.Sk) :
    List (Identity × GuardedPart S) → Bool × List (Name × Bytes) × List (Identity × GuardedPart S)
  | [] => (true, [], [])
  | (id, p) :: l =>
    match nextRound header ccSigs certRounds p.part.parent with
    | .ok next =>
      match deleteOldKeysG E K p next defaultDilution (rnd id) with
      | (true, w, p') =>
        let rest := deleteLoopG E K header ccSigs certRounds defaultDilution rnd l
        (rest.1, w ++ rest.2.1, (id, p') :: rest.2.2)
      | (false, w, p') => (false, w, (id, p') :: l)
    | _ => (false, [], (id, p) :: l)

end Verif.Account
