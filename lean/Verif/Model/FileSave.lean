import Verif.Model.Algokey
import Verif.Model.ConsensusFile
/-!
# Files with permissions, and writing that stops in the middle

How the code replaces a file: `OpenOptions::new().write(true).create(true).truncate(true).mode(..).open(name)?` and then
writing (src/bin/algokey/generate.rs lines 56-76, import.rs lines 57-77, export.rs lines 53-62, src/config/mod.rs lines
647-667, src/config/consensus.rs lines 501-508). Opening a file that exists empties it and leaves its permissions; a new
file gets the permissions asked for, less the bits of the process's `umask`. Writing can stop after any number of bytes
or characters, by a full disk or by a crash. A text is cut between characters; a file cut within one is not UTF-8 and
refused like the ones here. That a crash can undo the emptying of the file, if it happens before the system has written
anything to the disk, is not modelled (the file is then the old one).
-/

namespace Verif.Files
open Verif

/-- A file: its contents and the nine permission bits. -/
structure File (α : Type) where
  content : List α
  mode : Nat

/-- Where writing stops. -/
inductive Cut where
  | never
  | opening
  | after (k : Nat)
  deriving Repr, DecidableEq

/-- `mode & !umask` for a new file, the old permissions for one that exists. -/
def modeOf {α : Type} (old : Option (File α)) (mode umask : Nat) : Nat :=
  match old with
  | some f => f.mode
  | none => mode &&& (0o777 ^^^ (umask &&& 0o777))

/-- Replacing a file by `data`: whether an error is reported (`false`), and the file afterwards. -/
def replace {α : Type} (umask : Nat) (stop : Cut) (mode : Nat) (data : List α) (old : Option (File α)) :
    Bool × Option (File α) :=
  match stop with
  | .opening => (false, old)
  | .never => (true, some ⟨data, modeOf old mode umask⟩)
  | .after k =>
    if data.length ≤ k then (true, some ⟨data, modeOf old mode umask⟩)
    else (false, some ⟨data.take k, modeOf old mode umask⟩)

/-! ## `algokey` -/
open Verif.Algokey Verif.Mnemonic

/-- The files of the machine, the `umask` of the process, and where writing to each name stops. -/
structure Machine where
  files : Text → Option (File UInt8)
  umask : Nat
  stop : Text → Cut

/-- Opening and `write_all`. -/
def Machine.write (m : Machine) (name : Text) (mode : Nat) (data : Bytes) : Bool × Machine :=
  let r := replace m.umask (m.stop name) mode data (m.files name)
  (r.1, { m with files := fun n => if n = name then r.2 else m.files n })

/-- `write_sk` (generate.rs lines 56-65, import.rs lines 57-66). -/
def Machine.writeSk (m : Machine) (name : Text) (data : Bytes) : Bool × Machine := m.write name 0o600 data

/-- `write_pk` (generate.rs lines 67-76, import.rs lines 68-77, export.rs lines 53-62). -/
def Machine.writePk (m : Machine) (name : Text) (data : Bytes) : Bool × Machine := m.write name 0o666 data

/-- `if !name.is_empty() { if let Err(e) = write(..) { println!(..) } }` (generate.rs lines 42-52). -/
def ifNamed (name : Text) (m : Machine) (r : Bool × Machine) : Machine × List Line :=
  if name = [] then (m, []) else (r.2, if r.1 then [] else [.error])

/-- The effect of a command. -/
structure Effect where
  machine : Machine
  lines : List Line
  exit : Exit

/-- `GenerateCmd::entrypoint` (generate.rs lines 28-53), for the seed drawn. -/
def generate (L : Lib) (seed : Bytes) (skFile pkFile : Text) (m : Machine) : Effect :=
  match keyToMnemonic englishWords L.hash seed, addressOf L seed with
  | .ok words, .ok addr =>
    let (m, e1) := ifNamed skFile m (m.writeSk skFile seed)
    let (m, e2) := ifNamed pkFile m (m.writePk pkFile addr)
    ⟨m, [.mnemonic (join words), .address addr] ++ e1 ++ e2, .done⟩
  | _, _ => ⟨m, [], .panicked⟩

/-- `ImportCmd::entrypoint` (import.rs lines 30-54). -/
def importKey (L : Lib) (phrase skFile pkFile : Text) (m : Machine) : Effect :=
  match phraseToKey englishWords L.hash phrase with
  | .ok seed =>
    match addressOf L seed with
    | .ok addr =>
      let (m, e1) := ifNamed skFile m (m.writeSk skFile seed)
      let (m, e2) := ifNamed pkFile m (m.writePk pkFile addr)
      ⟨m, [.mnemonic phrase, .address addr] ++ e1 ++ e2, .done⟩
    | _ => ⟨m, [], .panicked⟩
  | .err _ => ⟨m, [.error], .panicked⟩
  | .panic => ⟨m, [], .panicked⟩

/-- The contents of the files, as `Verif.Algokey` has them. -/
def Machine.world (m : Machine) : World :=
  ⟨fun n => (m.files n).map (·.content), fun n => m.stop n ≠ .opening⟩

/-! ## Consensus overrides and phonebook -/
open Verif.Config Verif.Consensus

/-- The texts of the directory, without permissions. -/
abbrev ModeFs := Str → Option (File Char)

/-- The contents. -/
def contents (fs : ModeFs) : Fs := fun p => (fs p).map (·.content)

/-- `save_configurable_consensus` (src/config/consensus.rs lines 492-510): an empty table first removes the file, or ends
with an error if there is none. -/
def saveConsensus (J : JsonLib) (umask : Nat) (stop : Cut) (fs : ModeFs) (dir : Str) (params : Protocols) :
    Res FileError Unit × ModeFs :=
  let path := joinPath dir overrideFilename
  let put (old : Option (File Char)) : Res FileError Unit × ModeFs :=
    let r := replace umask stop 0o644 (J.print (tableJson params)) old
    (if r.1 then .ok () else .err .other, fun p => if p = path then r.2 else fs p)
  if params.isEmpty then
    match fs path with
    | none => (.err .notFound, fs)
    | some _ => put none
  else put (fs path)

end Verif.Files
