import Verif.Model.Algokey
/-!
# Model of the preallocation of memory in `src/crypto/ots.rs` and `src/crypto/batch_verifier.rs`

`Vec::with_capacity` and `VecDeque::with_capacity` reserve memory for all elements at once. `mem` is the number of bytes
that can be allocated (never more than `isize::MAX`, 2^63 - 1, see `Mem`): a request for more panics ("capacity overflow")
or ends the process; both are `.panic`. The sizes of the elements in memory are chosen by the compiler and are parameters.
`Verif/Model/Ots.lean`, `Verif/Model/Account.lean` and `Verif/Model/Multisig.lean` have the same functions without this step.
-/

namespace Verif.Capacity
open Verif Verif.Multisig Verif.Ots Verif.Account Verif.Algokey

/-- What is known of the allocator: no request above `isize::MAX` bytes succeeds. -/
def Mem (mem : Nat) : Prop := mem < 2 ^ 63

/-- `with_capacity(n)` for elements of `size` bytes. -/
def reserve {ε : Type} (mem size n : Nat) : Res ε Unit := if size * n ≤ mem then .ok () else .panic

/-- `OTSSecrets::generate` (ots.rs lines 115-146) with line 117. `size` is the size of an `EphemeralSubkey`. -/
def generate (mem size : Nat) (S : Scheme) (E : Enc) (master : S.Sk) (eph : Nat → S.Sk) (start num : Nat) :
    Res Unit (Secrets S) := do
  reserve mem size num
  Ots.generate S E master eph start num

/-- `fill_db_with_participation_keys` (account.rs lines 232-269). -/
def fillDb {G : Type} {S : Scheme} (mem size : Nat) (E : Enc) (K : Keys S) (C : Vrf.Curve G) [AddCommGroup G] (master : S.Sk)
    (eph : Nat → S.Sk) (seed parent : Bytes) (first last keyDilution : Nat) :
    Res AccountError (Participation S × List (Name × Bytes)) :=
  if last < first then .err (.invalidRoundInterval first last)
  else do
    let firstId ← roundId first keyDilution
    let lastId ← roundId last keyDilution
    let diff ← subU lastId.batch firstId.batch
    let num ← addU64 diff 1
    match generate mem size S E master eph firstId.batch num with
    | .ok voting =>
      let p : Participation S := ⟨parent, Vrf.fromSeed C seed, voting, first, last, keyDilution⟩
      .ok (p, persist K p)
    | _ => .panic

/-- `PartGenerateCmd::entrypoint` (part.rs lines 79-99). -/
def partGenerate {G : Type} [AddCommGroup G] {S : Scheme} (mem size : Nat) (hash : Bytes → Bytes) (E : Enc) (K : Keys S)
    (C : Vrf.Curve G) (master : S.Sk) (eph : Nat → S.Sk) (seed : Bytes)
    (first last dilution : Nat) (parent : Bytes) (s : Store) : PartOutcome :=
  match dilutionOf dilution first last with
  | .ok d =>
    match Address.fromStr hash parent with
    | .ok a =>
      match fillDb mem size E K C master eph seed a first last d with
      | .ok (p, w) => ⟨s.inserts w, some (info p), .done⟩
      | .err _ => ⟨s, none, .failed⟩
      | .panic => ⟨s, none, .panicked⟩
    | _ => ⟨s, none, .panicked⟩
  | _ => ⟨s, none, .panicked⟩

/-- The sizes of a `Vec<u8>`, a `PublicKey` and a `Signature`. -/
structure Sizes where
  message : Nat
  key : Nat
  signature : Nat

/-- `BatchVerifier::with_capacity` (batch_verifier.rs lines 27-35), three requests one after the other; `MIN_CAPACITY` is
16 (line 8). The memory of the earlier requests is not counted against the later ones. -/
def withCapacity (mem : Nat) (z : Sizes) (capacity : Nat) : Res Empty BatchVerifier := do
  let capacity := max capacity 16
  reserve mem z.message capacity
  reserve mem z.key capacity
  reserve mem z.signature capacity
  .ok BatchVerifier.new

/-- `BatchVerifier::default` (batch_verifier.rs lines 68-74). -/
def defaultVerifier (mem : Nat) (z : Sizes) : Res Empty BatchVerifier := withCapacity mem z 16

end Verif.Capacity
