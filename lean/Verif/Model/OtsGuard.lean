import Verif.Model.Ots
/-!
# Model of `src/crypto/ots.rs`: crashes inside a call

The functions of `Verif/Model/Ots.lean` once more, with the lock of the key set and a source of randomness that can fail.
`delete_before` takes the lock for writing and unwraps it, so that a crash inside it marks the lock ("poisons" it) and
every later `delete_before` crashes at its first line. `sign` and `snapshot` take the lock for reading and keep the result
without looking at it. A crash in `delete_before` leaves the fields as they are at that point; the caller is assumed to
survive the crash (a thread of its own, or `catch_unwind`). `Keypair::generate` crashes if the operating system gives no
randomness (`OsRng::fill_bytes`); a draw is `none` then.
-/

namespace Verif.Ots
open Verif Verif.Multisig

/-- `OTSSecrets` (lines 88-110) with its `lock`. -/
structure Guarded (S : Scheme) where
  st : Secrets S
  poisoned : Bool

/-- The loop of `delete_before` (lines 275-289): the keys pushed, and whether it reached its end. -/
def expandR {S : Scheme} (E : Enc) (key : S.Sk) (batch : Nat) (rnd : Nat → Option S.Sk) :
    Nat → Nat → List (Subkey S) × Bool
  | _, 0 => ([], true)
  | off, n + 1 =>
    match rnd off with
    | none => ([], false)
    | some k =>
      (⟨k, S.sign key (offsetRep E (S.pub k) batch off)⟩ :: (expandR E key batch rnd (off + 1) n).1,
        (expandR E key batch rnd (off + 1) n).2)

/-- The body of `delete_before` (lines 226-293): whether it returned, and the fields it left. -/
def deleteR {S : Scheme} (E : Enc) (st : Secrets S) (cur : Ident) (numKeys : Nat) (rnd : Nat → Option S.Sk) :
    Bool × Secrets S :=
  if ¬ cur.batch + 1 < u64Lim then (false, st)
  else if cur.batch + 1 = st.firstBatch then
    (true, if cur.offset > st.firstOffset then
      let jump := min (cur.offset - st.firstOffset) st.offsets.length
      { st with firstOffset := st.firstOffset + jump, offsets := st.offsets.drop jump }
    else st)
  else if cur.batch + 1 < st.firstBatch then (true, st)
  else
    let st := { st with offsets := [] }
    let jump := cur.batch - st.firstBatch
    if jump > st.batches.length then
      (true, if !st.batches.isEmpty then { st with firstBatch := cur.batch, batches := [] } else st)
    else
      let st := { st with firstBatch := st.firstBatch + jump, batches := st.batches.drop jump }
      match st.batches with
      | [] => (true, st)
      | k :: rest =>
        let keys := expandR E k.sk cur.batch rnd cur.offset (numKeys - cur.offset)
        let st := { st with
          offsetsPk2 := S.pub k.sk
          offsetsPk2Sig := k.pkSig
          firstOffset := cur.offset
          offsets := keys.1 }
        if ¬ keys.2 then (false, st)
        else if ¬ st.firstBatch + 1 < u64Lim then (false, st)
        else (true, { st with firstBatch := st.firstBatch + 1, batches := rest })

/-- `OTSSecrets::delete_before` (lines 223-294): line 224 crashes on a poisoned lock; a crash poisons it. -/
def deleteG {S : Scheme} (E : Enc) (g : Guarded S) (cur : Ident) (numKeys : Nat) (rnd : Nat → Option S.Sk) :
    Res Unit Unit × Guarded S :=
  if g.poisoned then (.panic, g)
  else match deleteR E g.st cur numKeys rnd with
    | (true, st) => (.ok (), ⟨st, false⟩)
    | (false, st) => (.panic, ⟨st, true⟩)

/-- `OTSSecrets::sign` (lines 149-219). `fresh` is the draw on line 174; line 150 does not look at the state of the lock,
and a crash under a lock taken for reading does not poison it. -/
def signG {S : Scheme} (E : Enc) (g : Guarded S) (id : Ident) (msgRep : Bytes) (fresh : Option S.Sk) : Res Unit OTS := do
  let b1 ← addU64 id.batch 1
  if b1 = g.st.firstBatch ∧ id.offset ≥ g.st.firstOffset ∧ id.offset - g.st.firstOffset < g.st.offsets.length then do
    let k ← Res.ofOption g.st.offsets[id.offset - g.st.firstOffset]?
    pure ⟨S.sign k.sk msgRep, S.pub k.sk, g.st.offsetsPk2, k.pkSig, g.st.offsetsPk2Sig⟩
  else if id.batch ≥ g.st.firstBatch ∧ id.batch - g.st.firstBatch < g.st.batches.length then do
    let drawn ← Res.ofOption fresh
    let k ← Res.ofOption g.st.batches[id.batch - g.st.firstBatch]?
    pure ⟨S.sign drawn msgRep, S.pub drawn, S.pub k.sk,
      S.sign k.sk (offsetRep E (S.pub drawn) id.batch id.offset), k.pkSig⟩
  else do
    if g.st.firstBatch = b1 then do
      let _ ← addU64 id.offset 1
      pure emptyOTS
    else pure emptyOTS

/-- `OTSSecrets::snapshot` (lines 299-313): the fields, and a new lock. -/
def snapshotG {S : Scheme} (g : Guarded S) : Guarded S := ⟨snapshot g.st, false⟩

end Verif.Ots
