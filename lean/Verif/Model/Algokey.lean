import Mathlib.Data.Nat.Sqrt
import Verif.Model.Account
import Verif.Model.Address
import Verif.Model.Mnemonic
import Verif.Model.WordList
/-!
# Model of the command line tool `src/bin/algokey`

A command is a function from its parsed arguments and the state of the machine to the new state, the lines it prints and
how the process ends. Argument parsing (`clap`) is not modelled. A file is its contents; opening for writing either fails
and changes nothing or succeeds, and then all bytes are written (a disk that fills up in between is not modelled). File
modes are not modelled. Random seeds and keys are arguments.
-/

namespace Verif.Algokey
open Verif Verif.Mnemonic Verif.Account

/-- A file name or a text argument. -/
abbrev Text := List Char

/-- The files of the machine, and which names can be opened for writing. -/
structure World where
  files : Text → Option Bytes
  writable : Text → Bool

/-- How the process ends: normally, by `exit(1)` after a message, or by a panic. -/
inductive Exit where
  | done | failed | panicked
  deriving Repr, DecidableEq

/-- What is printed. -/
inductive Line where
  | mnemonic (phrase : Text)
  | address (text : Bytes)
  | error
  deriving Repr, DecidableEq

/-- The effect of a command. -/
structure Outcome where
  world : World
  lines : List Line
  exit : Exit

/-- The parameters: SHA-512/256, and `PublicKey::from(&SecretKey)` on the 32 bytes of a secret key (every 32 bytes are a
secret key for the library, so `SecretKey::from_bytes(&seed).unwrap()` succeeds). -/
structure Lib where
  hash : Bytes → Bytes
  pubOf : Bytes → Bytes

/-- `words.join(" ")`. -/
def join : List Text → Text
  | [] => []
  | [w] => w
  | w :: ws => w ++ ' ' :: join ws

/-- `OpenOptions::new().write(true).create(true).truncate(true).open(name)` and `write_all` (generate.rs lines 56-76). -/
def World.write (w : World) (name : Text) (data : Bytes) : Option World :=
  if w.writable name then some { w with files := fun n => if n = name then some data else w.files n } else none

/-- `if !name.is_empty() { if let Err(e) = write(..) { println!(..) } }` (generate.rs lines 42-52). -/
def World.writeIfNamed (w : World) (name : Text) (data : Bytes) : World × List Line :=
  if name = [] then (w, [])
  else match w.write name data with
    | some w => (w, [])
    | none => (w, [.error])

/-- `load_sk` (export.rs lines 46-51, sign.rs lines 68-73): the first 32 bytes; a shorter or missing file is an error. -/
def World.loadSk (w : World) (name : Text) : Option Bytes :=
  match w.files name with
  | some b => if 32 ≤ b.length then some (b.take 32) else none
  | none => none

/-- The address text of a seed (generate.rs lines 36-38). -/
def addressOf (L : Lib) (seed : Bytes) : Res Empty Bytes := Address.display L.hash (L.pubOf seed)

/-- `GenerateCmd::entrypoint` (generate.rs lines 28-53), for the seed drawn. -/
def generate (L : Lib) (seed : Bytes) (skFile pkFile : Text) (w : World) : Outcome :=
  match keyToMnemonic englishWords L.hash seed, addressOf L seed with
  | .ok words, .ok addr =>
    let (w, e1) := w.writeIfNamed skFile seed
    let (w, e2) := w.writeIfNamed pkFile addr
    ⟨w, [.mnemonic (join words), .address addr] ++ e1 ++ e2, .done⟩
  | _, _ => ⟨w, [], .panicked⟩

/-- `ImportCmd::entrypoint` (import.rs lines 30-54): an invalid phrase is reported and then unwrapped. -/
def importKey (L : Lib) (phrase skFile pkFile : Text) (w : World) : Outcome :=
  match phraseToKey englishWords L.hash phrase with
  | .ok seed =>
    match addressOf L seed with
    | .ok addr =>
      let (w, e1) := w.writeIfNamed skFile seed
      let (w, e2) := w.writeIfNamed pkFile addr
      ⟨w, [.mnemonic phrase, .address addr] ++ e1 ++ e2, .done⟩
    | _ => ⟨w, [], .panicked⟩
  | .err _ => ⟨w, [.error], .panicked⟩
  | .panic => ⟨w, [], .panicked⟩

/-- `ExportCmd::entrypoint` (export.rs lines 27-43). -/
def exportKey (L : Lib) (skFile pkFile : Text) (w : World) : Outcome :=
  match w.loadSk skFile with
  | none => ⟨w, [], .panicked⟩
  | some seed =>
    match keyToMnemonic englishWords L.hash seed, addressOf L seed with
    | .ok words, .ok addr =>
      let (w, e) := w.writeIfNamed pkFile addr
      ⟨w, [.mnemonic (join words), .address addr] ++ e, .done⟩
    | _, _ => ⟨w, [], .panicked⟩

/-! ## `algokey sign` -/

/-- `load_keyfile_or_mnemonic` (sign.rs lines 52-66): the seed, or how the process ends. -/
def loadKeyfileOrMnemonic (L : Lib) (keyfile phrase : Text) (w : World) : Except Exit Bytes :=
  if keyfile ≠ [] ∧ phrase ≠ [] then .error .failed
  else if keyfile ≠ [] then
    match w.loadSk keyfile with
    | some seed => .ok seed
    | none => .error .panicked
  else if phrase ≠ [] then
    match phraseToKey englishWords L.hash phrase with
    | .ok seed => .ok seed
    | _ => .error .panicked
  else .error .failed

/-- A file handle: `File::open` opens for reading only. -/
structure Handle where
  name : Text
  canWrite : Bool

/-- `File::open` (sign.rs lines 37, 47). -/
def World.openRead (w : World) (name : Text) : Option Handle := (w.files name).map fun _ => ⟨name, false⟩

/-- `rmp_serde::encode::write` to a handle: an error unless it was opened for writing (`EBADF`). -/
def World.writeHandle (w : World) (h : Handle) (data : Bytes) : Option World :=
  if h.canWrite then some { w with files := fun n => if n = h.name then some data else w.files n } else none

/-- `SignCmd::entrypoint` (sign.rs lines 32-49). `signTx kp b` stands for decoding a transaction from `b`, signing it
with `kp`, filling in `auth_addr`, and encoding the result; `none` if the bytes do not decode. -/
def sign {S : Multisig.Scheme} (L : Lib) (K : Keys S) (signTx : S.Sk → Bytes → Option Bytes)
    (skFile phrase txFile outFile : Text) (w : World) : Outcome :=
  match loadKeyfileOrMnemonic L skFile phrase w with
  | .error e => ⟨w, [.error], e⟩
  | .ok seed =>
    match K.skOf seed with
    | none => ⟨w, [], .panicked⟩
    | some kp =>
      match (w.openRead txFile).bind (fun h => w.files h.name) with
      | none => ⟨w, [], .panicked⟩
      | some raw =>
        match signTx kp raw with
        | none => ⟨w, [], .panicked⟩
        | some stx =>
          match w.openRead outFile with
          | none => ⟨w, [], .panicked⟩
          | some h =>
            match w.writeHandle h stx with
            | none => ⟨w, [], .panicked⟩
            | some w => ⟨w, [], .done⟩

/-! ## `algokey part` -/

/-- `n as f64` for a `u64`: the nearest number with 53 significant bits, ties to even. -/
def f64OfU64 (n : Nat) : Nat :=
  if n < 2 ^ 53 then n
  else
    let k := Nat.log2 n - 52
    if 2 * (n % 2 ^ k) > 2 ^ k ∨ (2 * (n % 2 ^ k) = 2 ^ k ∧ n / 2 ^ k % 2 = 1) then (n / 2 ^ k + 1) * 2 ^ k
    else n / 2 ^ k * 2 ^ k

/-- `x.sqrt() as u64` for an `f64` that is a whole number: the root is the nearest number with 53 significant bits,
that is a multiple of `2^-k` where `k = 52 - log2 (root)`; the conversion cuts off the fraction. -/
def f64SqrtU64 (n : Nat) : Nat :=
  let k := 52 - Nat.log2 (Nat.sqrt n)
  let r := Nat.sqrt (n * 4 ^ k)
  (if n * 4 ^ k > r * r + r then r + 1 else r) / 2 ^ k

/-- What `print_participation_key` shows (part.rs lines 140-150), as values. -/
structure Info where
  parent : Bytes
  vrf : Bytes
  voting : Bytes
  first : Nat
  last : Nat
  dilution : Nat
  firstBatch : Nat
  firstOffset : Nat
  deriving Repr, DecidableEq

/-- `print_participation_key` (part.rs lines 140-150). -/
def info {S : Multisig.Scheme} (p : Participation S) : Info :=
  ⟨p.parent, p.vrf.pub, p.voting.verifier, p.firstValid, p.lastValid, p.keyDilution, p.voting.firstBatch,
    p.voting.firstOffset⟩

/-- The effect of a `part` command: the key store, what is shown and how the process ends. -/
structure PartOutcome where
  store : Store
  shown : Option Info
  exit : Exit

/-- The dilution used (part.rs lines 80-83): `last - first` below zero panics. -/
def dilutionOf (dilution first last : Nat) : Res Unit Nat :=
  if dilution = 0 then do
    let d ← subU last first
    addU64 1 (f64SqrtU64 (f64OfU64 d))
  else .ok dilution

/-- `PartGenerateCmd::entrypoint` (part.rs lines 79-99). The key file argument is not used by the code. -/
def partGenerate {G : Type} [AddCommGroup G] {S : Multisig.Scheme} (hash : Bytes → Bytes) (E : Ots.Enc) (K : Keys S)
    (C : Vrf.Curve G) (master : S.Sk) (eph : Nat → S.Sk) (seed : Bytes)
    (_keyfile : Text) (first last dilution : Nat) (parent : Bytes) (s : Store) : PartOutcome :=
  match dilutionOf dilution first last with
  | .ok d =>
    match Address.fromStr hash parent with
    | .ok a =>
      match fillDb E K C master eph seed a first last d with
      | .ok (p, w) => ⟨s.inserts w, some (info p), .done⟩
      | .err _ => ⟨s, none, .failed⟩
      | .panic => ⟨s, none, .panicked⟩
    | _ => ⟨s, none, .panicked⟩
  | _ => ⟨s, none, .panicked⟩

/-- `PartInfoCmd::entrypoint` (part.rs lines 103-113). The key file argument is not used by the code. -/
def partInfo {S : Multisig.Scheme} (K : Keys S) (_keyfile : Text) (s : Store) : PartOutcome :=
  match restore K s with
  | .ok p => ⟨s, some (info p), .done⟩
  | .err _ => ⟨s, none, .failed⟩
  | .panic => ⟨s, none, .panicked⟩

/-- `PartReparentCmd::entrypoint` (part.rs lines 117-137). The key file argument is not used by the code. -/
def partReparent {S : Multisig.Scheme} (hash : Bytes → Bytes) (K : Keys S) (_keyfile : Text) (parent : Bytes) (s : Store) :
    PartOutcome :=
  match Address.fromStr hash parent with
  | .ok a =>
    match restore K s with
    | .ok p =>
      let p := { p with parent := a }
      ⟨s.inserts (persistNewParent p), some (info p), .done⟩
    | .err _ => ⟨s, none, .failed⟩
    | .panic => ⟨s, none, .panicked⟩
  | .err _ => ⟨s, none, .failed⟩
  | .panic => ⟨s, none, .panicked⟩

end Verif.Algokey
