import Verif.Model.Account

/-!
# Model of `src/data/account.rs` and `src/data/account_manager.rs` with a key store that can fail

The functions of `Verif.Model.Account`, now on a `sled` database whose accesses can fail one by one. What is inserted is
visible at once and permanent after a successful `flush`; a crash in between keeps some prefix of the inserts since the
last one (`sled` recovers a prefix of its log). A failed insert stores nothing. Opening the database
(`sled::open("keystore.db").unwrap()`, line 17) is not modelled: if it fails, every function here panics.
-/

namespace Verif.Account
open Verif Verif.Ots Verif.Multisig Verif.Msgpack Verif.Consensus

/-- The database: what is permanent and the inserts since the last flush, oldest first. -/
structure Disk where
  durable : Store
  pending : List (Name × Bytes)

/-- What `get` reads. -/
def Disk.visible (d : Disk) : Store := d.durable.inserts d.pending

/-- The database and the number of accesses so far. -/
structure Medium where
  disk : Disk
  clock : Nat

/-- `Error` (account.rs lines 54-64), with `StorageError`. -/
inductive StoreError where
  | account (e : AccountError)
  | storage
  deriving Repr, DecidableEq

/-- `KEY_STORE.insert`; `fail n` tells whether access `n` fails. -/
def insertF (fail : Nat → Bool) (k : Name) (v : Bytes) (m : Medium) : Res StoreError Unit × Medium :=
  if fail m.clock then (.err .storage, ⟨m.disk, m.clock + 1⟩)
  else (.ok (), ⟨⟨m.disk.durable, m.disk.pending ++ [(k, v)]⟩, m.clock + 1⟩)

/-- `KEY_STORE.flush`. -/
def flushF (fail : Nat → Bool) (m : Medium) : Res StoreError Unit × Medium :=
  if fail m.clock then (.err .storage, ⟨m.disk, m.clock + 1⟩)
  else (.ok (), ⟨⟨m.disk.visible, []⟩, m.clock + 1⟩)

/-- Inserts followed by a flush, each with `?`. -/
def storeF (fail : Nat → Bool) : List (Name × Bytes) → Medium → Res StoreError Unit × Medium
  | [], m => flushF fail m
  | (k, v) :: l, m =>
    match insertF fail k v m with
    | (.ok _, m') => storeF fail l m'
    | (.err e, m') => (.err e, m')
    | (.panic, m') => (.panic, m')

/-- `KEY_STORE.get` for several names in order, each with `?`. -/
def getsF (fail : Nat → Bool) : List Name → Medium → Res StoreError (List (Name × Option Bytes)) × Medium
  | [], m => (.ok [], m)
  | k :: l, m =>
    if fail m.clock then (.err .storage, ⟨m.disk, m.clock + 1⟩)
    else
      match getsF fail l ⟨m.disk, m.clock + 1⟩ with
      | (.ok vs, m') => (.ok ((k, m.disk.visible k) :: vs), m')
      | r => r

/-- The values read, as a store. -/
def readValues (vs : List (Name × Option Bytes)) : Store := fun k => (vs.find? fun e => e.1 = k).bind (·.2)

/-- An error of this module next to storage errors. -/
def withStorage {α : Type} : Res AccountError α → Res StoreError α
  | .ok a => .ok a
  | .err e => .err (.account e)
  | .panic => .panic

/-- `Root::import` (lines 76-84). -/
def importRootF {S : Scheme} (K : Keys S) (fail : Nat → Bool) (seed : Bytes) (m : Medium) : Res StoreError S.Sk × Medium :=
  match importRoot K seed with
  | .ok (kp, w) =>
    match storeF fail w m with
    | (.ok _, m') => (.ok kp, m')
    | (.err e, m') => (.err e, m')
    | (.panic, m') => (.panic, m')
  | .err e => (.err (.account e), m)
  | .panic => (.panic, m)

/-- `Root::restore` (lines 87-96). -/
def restoreRootF {S : Scheme} (K : Keys S) (fail : Nat → Bool) (m : Medium) : Res StoreError S.Sk × Medium :=
  match getsF fail [.root] m with
  | (.ok vs, m') => (withStorage (restoreRoot K (readValues vs)), m')
  | (.err e, m') => (.err e, m')
  | (.panic, m') => (.panic, m')

/-- `Participation::restore` (lines 178-202): all six values are read before the first is used. -/
def restoreF {S : Scheme} (K : Keys S) (fail : Nat → Bool) (m : Medium) : Res StoreError (Participation S) × Medium :=
  match getsF fail [.parent, .vrf, .voting, .firstValid, .lastValid, .keyDilution] m with
  | (.ok vs, m') => (withStorage (restore K (readValues vs)), m')
  | (.err e, m') => (.err e, m')
  | (.panic, m') => (.panic, m')

/-- `persist` (lines 272-286). -/
def persistF {S : Scheme} (K : Keys S) (fail : Nat → Bool) (p : Participation S) (m : Medium) :
    Res StoreError Unit × Medium := storeF fail (persist K p) m

/-- `persist_new_parent` (lines 225-229). -/
def persistNewParentF {S : Scheme} (fail : Nat → Bool) (p : Participation S) (m : Medium) :
    Res StoreError Unit × Medium := storeF fail (persistNewParent p) m

/-- `delete_old_keys` (lines 205-222): the participation in memory, the result returned, and the database. -/
def deleteOldKeysF {S : Scheme} (E : Enc) (K : Keys S) (fail : Nat → Bool) (p : Participation S)
    (current defaultDilution : Nat) (fresh : Nat → S.Sk) (m : Medium) :
    Res Unit (Participation S × Res StoreError Unit × Medium) :=
  match deleteOldKeys E K p current defaultDilution fresh with
  | .ok (p', w) => .ok (p', storeF fail w m)
  | .err e => .err e
  | .panic => .panic

/-- `fill_db_with_participation_keys` (lines 232-269): `part.persist().unwrap()`. -/
def fillDbF {G : Type} {S : Scheme} (E : Enc) (K : Keys S) (C : Vrf.Curve G) [AddCommGroup G] (fail : Nat → Bool)
    (master : S.Sk) (eph : Nat → S.Sk) (seed parent : Bytes) (first last keyDilution : Nat) (m : Medium) :
    Res StoreError (Participation S) × Medium :=
  match fillDb E K C master eph seed parent first last keyDilution with
  | .ok (p, w) =>
    match storeF fail w m with
    | (.ok _, m') => (.ok p, m')
    | (_, m') => (.panic, m')
  | .err e => (.err (.account e), m)
  | .panic => (.panic, m)

/-- The loop of `AccountManager::delete_old_keys` (account_manager.rs lines 109-147): an error is logged and the loop
goes on. -/
def deleteLoopF {S : Scheme} (E : Enc) (K : Keys S) (fail : Nat → Bool) (header : Block.HeaderBody)
    (ccSigs : Bytes → Option Nat) (certRounds defaultDilution : Nat) (fresh : Identity → Nat → S.Sk) :
    List (Identity × Participation S) → Medium → Res Unit (List (Identity × Participation S) × Medium)
  | [], m => .ok ([], m)
  | (id, p) :: l, m => do
    let next ← nextRound header ccSigs certRounds p.parent
    let (p', _, m') ← deleteOldKeysF E K fail p next defaultDilution (fresh id) m
    let (l', m'') ← deleteLoopF E K fail header ccSigs certRounds defaultDilution fresh l m'
    .ok ((id, p') :: l', m'')

/-- `AccountManager::delete_old_keys` (lines 100-148): returns nothing. -/
def Manager.deleteOldKeysF {S : Scheme} (E : Enc) (K : Keys S) (fail : Nat → Bool) (tbl : Protocols) (mgr : Manager S)
    (header : Block.BlockHeader) (ccSigs : Bytes → Option Nat) (defaultDilution : Nat) (fresh : Identity → Nat → S.Sk)
    (order : List (Identity × Participation S) → List (Identity × Participation S)) (m : Medium) :
    Res Unit (Manager S × Medium) := do
  let latest ← Res.ofOption (lookup tbl header.upgradeState.current)
  let (l, m') ← deleteLoopF E K fail header.body ccSigs latest.compactCertRounds defaultDilution fresh
    (order mgr.partKeys) m
  .ok (⟨l⟩, m')

end Verif.Account
