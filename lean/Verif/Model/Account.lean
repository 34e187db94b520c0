import Verif.Model.Codec
import Verif.Model.Units
import Verif.Model.Vrf
/-!
# Model of `src/data/account.rs` and `src/data/account_manager.rs`

The key store (`sled`) is a map from the names used by the code to byte strings. Operations on it are returned as the
list of their inserts in program order; a crash or a failing insert leaves the effect of a prefix of that list, and
`flush` at the end of every operation makes all of them permanent. Ed25519 is the scheme parameter `S`; the random keys
drawn are arguments. The mutex and the telemetry set `registered_accounts`, which is never read back, are not modelled.
-/

namespace Verif.Account
open Verif Verif.Ots Verif.Multisig Verif.Codec Verif.Msgpack Verif.Balance Verif.Consensus

/-- The library's key bytes: `Keypair::to_bytes`, `Keypair::from_bytes`, next to the checks of `Codec.Lib`. -/
structure Keys (S : Scheme) where
  lib : Lib
  skBytes : S.Sk → Bytes
  skOf : Bytes → Option S.Sk

/-! ## Encodings -/

/-- `EphemeralSubkey` (ots.rs lines 356-365, derived). -/
def subkeyMP {S : Scheme} (K : Keys S) (k : Subkey S) : MP := .arr [.bin (K.skBytes k.sk), bytesArr k.pkSig]

/-- `OTSSecrets` (ots.rs lines 85-110, derived); the lock is written as its contents, the unit value. -/
def secretsMP {S : Scheme} (K : Keys S) (s : Secrets S) : MP :=
  .arr [.bin s.verifier, .uint s.firstBatch, .arr (s.batches.map (subkeyMP K)), .uint s.firstOffset,
    .arr (s.offsets.map (subkeyMP K)), .bin s.offsetsPk2, bytesArr s.offsetsPk2Sig, .nil]

/-- `VrfKeypair` (vrf.rs lines 30-37, derived). -/
def vrfMP (k : Vrf.Keypair) : MP := .arr [bytesArr k.priv, bytesArr k.pub]

/-- `Keypair`, read from bytes. -/
def decKeypair {S : Scheme} (K : Keys S) : MP → Option S.Sk
  | .bin b => K.skOf b
  | .str b => K.skOf b
  | v => (decBytes v).bind K.skOf

/-- `EphemeralSubkey`, read from an array (the form it is written in). -/
def decSubkey {S : Scheme} (K : Keys S) : MP → Option (Subkey S)
  | .arr [a, b] => do
    let sk ← decKeypair K a
    let sig ← decSig K.lib b
    some ⟨sk, sig⟩
  | _ => none

/-- `OTSSecrets`, read from an array. -/
def decSecrets {S : Scheme} (K : Keys S) : MP → Option (Secrets S)
  | .arr [a, b, c, d, e, f, g, .nil] => do
    let verifier ← decPk K.lib a
    let firstBatch ← decUint u64Lim b
    let batches ← decVec (decSubkey K) c
    let firstOffset ← decUint u64Lim d
    let offsets ← decVec (decSubkey K) e
    let pk2 ← decPk K.lib f
    let pk2Sig ← decSig K.lib g
    some ⟨verifier, firstBatch, batches, firstOffset, offsets, pk2, pk2Sig⟩
  | _ => none

/-- `VrfKeypair`, read from an array. -/
def decVrf : MP → Option Vrf.Keypair
  | .arr [a, b] => do
    let priv ← decArr 32 a
    let pub ← decArr 32 b
    some ⟨priv, pub⟩
  | _ => none

/-! ## The key store -/

/-- The names under which the code stores values: `"root"`, `"part-parent"`, `"part-vrf"`, `"part-voting"`,
`"part-first_valid"`, `"part-last_valid"`, `"part-key_dilution"`. -/
inductive Name where
  | root | parent | vrf | voting | firstValid | lastValid | keyDilution
  deriving Repr, DecidableEq

/-- `KEY_STORE` (account.rs lines 16-18). -/
abbrev Store := Name → Option Bytes

/-- `Db::insert`. -/
def Store.insert (s : Store) (k : Name) (v : Bytes) : Store := fun k' => if k' = k then some v else s k'

/-- Several inserts in order. -/
def Store.inserts (s : Store) : List (Name × Bytes) → Store
  | [] => s
  | (k, v) :: l => (s.insert k v).inserts l

/-- `Error` (account.rs lines 54-64); storage errors are the crash points of the module comment. -/
inductive AccountError where
  | notFound
  | invalidRoundInterval (first last : Nat)
  | decodeError
  deriving Repr, DecidableEq

/-- `Option` to a decoding error (`?`). -/
def orDecodeError {α : Type} : Option α → Res AccountError α
  | some a => .ok a
  | none => .err .decodeError

/-! ## Root accounts -/

/-- `Root::import` (lines 76-84): the key and the insert. -/
def importRoot {S : Scheme} (K : Keys S) (seed : Bytes) : Res AccountError (S.Sk × List (Name × Bytes)) := do
  let kp ← Res.ofOption (K.skOf seed)
  .ok (kp, [(.root, enc (.bin (K.skBytes kp)))])

/-- `Root::restore` (lines 87-96). -/
def restoreRoot {S : Scheme} (K : Keys S) (s : Store) : Res AccountError S.Sk :=
  match s .root with
  | none => .err .notFound
  | some raw => orDecodeError ((decode raw).bind fun p => decKeypair K p.1)

/-! ## Participation keys -/

/-- `Participation` (lines 40-52). -/
structure Participation (S : Scheme) where
  parent : Bytes
  vrf : Vrf.Keypair
  voting : Secrets S
  firstValid : Nat
  lastValid : Nat
  keyDilution : Nat

/-- `Round::ots_id` with the identifier type of the signatures (units.rs lines 73-78). -/
def roundId {ε : Type} (round keyDilution : Nat) : Res ε Ident :=
  match Units.otsId round keyDilution with
  | .ok id => .ok ⟨id.batch, id.offset⟩
  | _ => .panic

/-- `overlaps_interval` (lines 121-127). -/
def overlapsInterval {S : Scheme} (p : Participation S) (first last : Nat) : Res Unit Bool :=
  if last < first then .panic else .ok (decide (last ≥ p.firstValid ∧ first ≤ p.lastValid))

/-- `generate_registration_transaction` (lines 151-176). -/
def registrationTx {S : Scheme} (p : Participation S) (fee firstValid lastValid : Nat) (lease : Bytes) :
    Tx.Transaction :=
  ⟨{ Tx.Header.default with
      sender := p.parent
      fee := fee
      firstValid := firstValid
      lastValid := lastValid
      lease := lease },
    .keyreg ⟨p.voting.verifier, p.vrf.pub, p.firstValid, p.lastValid, p.keyDilution, false⟩⟩

/-- The inserts of `persist` (lines 272-286). -/
def persist {S : Scheme} (K : Keys S) (p : Participation S) : List (Name × Bytes) :=
  [(.parent, p.parent), (.vrf, enc (vrfMP p.vrf)), (.voting, enc (secretsMP K (snapshot p.voting))),
    (.firstValid, beBytes 8 p.firstValid), (.lastValid, beBytes 8 p.lastValid), (.keyDilution, beBytes 8 p.keyDilution)]

/-- `persist_new_parent` (lines 225-229). -/
def persistNewParent {S : Scheme} (p : Participation S) : List (Name × Bytes) := [(.parent, p.parent)]

/-- `as_ref().try_into().unwrap()` to `[u8; N]`. -/
def exactLen {ε : Type} (n : Nat) (b : Bytes) : Res ε Bytes := if b.length = n then .ok b else .panic

/-- `Participation::restore` (lines 178-202). -/
def restore {S : Scheme} (K : Keys S) (s : Store) : Res AccountError (Participation S) := do
  let rawParent ← Res.ofOption (s .parent)
  let parent ← exactLen 32 rawParent
  let rawVrf ← Res.ofOption (s .vrf)
  let vrf ← orDecodeError ((decode rawVrf).bind fun p => decVrf p.1)
  let rawVoting ← Res.ofOption (s .voting)
  let voting ← orDecodeError ((decode rawVoting).bind fun p => decSecrets K p.1)
  let rawFirst ← Res.ofOption (s .firstValid)
  let first ← exactLen 8 rawFirst
  let rawLast ← Res.ofOption (s .lastValid)
  let last ← exactLen 8 rawLast
  let rawDilution ← Res.ofOption (s .keyDilution)
  let dilution ← exactLen 8 rawDilution
  .ok ⟨parent, vrf, voting, ofBE first, ofBE last, ofBE dilution⟩

/-- `delete_old_keys` (lines 205-222): the changed participation and the inserts. `defaultDilution` is
`proto.default_key_dilution`. -/
def deleteOldKeys {S : Scheme} (E : Enc) (K : Keys S) (p : Participation S) (current defaultDilution : Nat)
    (fresh : Nat → S.Sk) : Res Unit (Participation S × List (Name × Bytes)) := do
  let dilution := if p.keyDilution = 0 then defaultDilution else p.keyDilution
  let id ← roundId current dilution
  match deleteBefore E p.voting id dilution fresh with
  | .ok voting => .ok ({ p with voting := voting }, [(.voting, enc (secretsMP K (snapshot voting)))])
  | _ => .panic

/-- `fill_db_with_participation_keys` (lines 232-269): the participation and the inserts. `master` and `eph` are the
keys drawn by `OTSSecrets::generate`, `seed` the one of the VRF key. -/
def fillDb {G : Type} {S : Scheme} (E : Enc) (K : Keys S) (C : Vrf.Curve G) [AddCommGroup G] (master : S.Sk)
    (eph : Nat → S.Sk) (seed parent : Bytes) (first last keyDilution : Nat) :
    Res AccountError (Participation S × List (Name × Bytes)) :=
  if last < first then .err (.invalidRoundInterval first last)
  else do
    let firstId ← roundId first keyDilution
    let lastId ← roundId last keyDilution
    let diff ← subU lastId.batch firstId.batch
    let num ← addU64 diff 1
    match generate S E master eph firstId.batch num with
    | .ok voting =>
      let p : Participation S := ⟨parent, Vrf.fromSeed C seed, voting, first, last, keyDilution⟩
      .ok (p, persist K p)
    | _ => .panic

/-! ## The account manager -/

/-- `ParticipationKeyIdentity` (account_manager.rs lines 16-25); equality compares all fields (lines 161-169). -/
structure Identity where
  address : Bytes
  firstValid : Nat
  lastValid : Nat
  voteId : Bytes
  selectionId : Bytes
  deriving Repr, DecidableEq

/-- The identity computed by `add_participation` (lines 63-72). -/
def Participation.identity {S : Scheme} (p : Participation S) : Identity :=
  ⟨p.parent, p.firstValid, p.lastValid, p.voting.verifier, p.vrf.pub⟩

/-- `AccountManager` (lines 29-36): the entries of `part_keys` in some order. -/
structure Manager (S : Scheme) where
  partKeys : List (Identity × Participation S)

/-- `AccountManager::default()`. -/
def Manager.empty {S : Scheme} : Manager S := ⟨[]⟩

/-- `keys` (lines 40-47); the interval from a round to itself is ordered, so `overlaps_interval` does not panic. -/
def Manager.keys {S : Scheme} (m : Manager S) (round : Nat) : List (Participation S) :=
  (m.partKeys.map (·.2)).filter fun p => overlapsInterval p round round = .ok true

/-- `any` over the values, which stops at the first hit (lines 53-55). -/
def anyOverlap {S : Scheme} (first last : Nat) : List (Participation S) → Res Unit Bool
  | [] => .ok false
  | p :: l => do
    let b ← overlapsInterval p first last
    if b then .ok true else anyOverlap first last l

/-- `has_live_keys` (lines 50-56). -/
def Manager.hasLiveKeys {S : Scheme} (m : Manager S) (first last : Nat) : Res Unit Bool :=
  anyOverlap first last (m.partKeys.map (·.2))

/-- `add_participation` (lines 60-97). -/
def Manager.addParticipation {S : Scheme} (m : Manager S) (p : Participation S) : Manager S × Bool :=
  if m.partKeys.any (fun e => e.1 = p.identity) then (m, false)
  else (⟨m.partKeys ++ [(p.identity, p)]⟩, true)

/-- The round before which an account's keys are deleted (lines 110-132). `header.compactCerts` is the entry under
`CompactCertType::Basic`; indexing a map without it panics, and so does `unwrap` on a missing signer. -/
def nextRound (header : Block.HeaderBody) (ccSigs : Bytes → Option Nat) (certRounds : Nat) (parent : Bytes) :
    Res Unit Nat := do
  let next ← addU64 header.round 1
  let cert ← Res.ofOption header.compactCerts
  if cert.nextRound > 0 then do
    let cc ← addU64 cert.nextRound 1
    let signed ← Res.ofOption (ccSigs parent)
    let cc ← (if signed ≥ cc then do
        let step ← addU64 certRounds 1
        addU64 signed step
      else .ok cc)
    .ok (if cc < next then cc else next)
  else .ok next

/-- The loop of `delete_old_keys` (lines 109-147) over the entries in iteration order. -/
def deleteLoop {S : Scheme} (E : Enc) (K : Keys S) (header : Block.HeaderBody) (ccSigs : Bytes → Option Nat)
    (certRounds defaultDilution : Nat) (fresh : Identity → Nat → S.Sk) :
    List (Identity × Participation S) → Res Unit (List (Identity × Participation S) × List (Name × Bytes))
  | [] => .ok ([], [])
  | (id, p) :: l => do
    let next ← nextRound header ccSigs certRounds p.parent
    let (p', w) ← deleteOldKeys E K p next defaultDilution (fresh id)
    let (l', w') ← deleteLoop E K header ccSigs certRounds defaultDilution fresh l
    .ok ((id, p') :: l', w ++ w')

/-- `AccountManager::delete_old_keys` (lines 100-148). `order` is the order in which the map iterates. -/
def Manager.deleteOldKeys {S : Scheme} (E : Enc) (K : Keys S) (tbl : Protocols) (m : Manager S)
    (header : Block.BlockHeader) (ccSigs : Bytes → Option Nat) (defaultDilution : Nat) (fresh : Identity → Nat → S.Sk)
    (order : List (Identity × Participation S) → List (Identity × Participation S)) :
    Res Unit (Manager S × List (Name × Bytes)) := do
  let latest ← Res.ofOption (lookup tbl header.upgradeState.current)
  let (l, w) ← deleteLoop E K header.body ccSigs latest.compactCertRounds defaultDilution fresh (order m.partKeys)
  .ok (⟨l⟩, w)

end Verif.Account
