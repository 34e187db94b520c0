import Verif.Model.Config
/-!
# Where configuration files are (src/config/mod.rs)

Paths are texts, joined as `std::path::Path::join` does on Unix. What the operating system does is given by a `World`: the
home directory of the user and the outcome of creating directories. `shellexpand::env` is a parameter that gives nothing if
the expansion fails.
-/

namespace Verif.Config
open Verif

/-- `Path::join` on Unix: an absolute second path replaces the first one. -/
def joinPath (a b : Str) : Str :=
  if b.head? = some '/' then b
  else if a = [] ∨ a.getLast? = some '/' then a ++ b
  else a ++ '/' :: b

/-- `CONFIG_FILENAME` (line 461). -/
def configFilename : Str := ['c', 'o', 'n', 'f', 'i', 'g', '.', 'j', 's', 'o', 'n']

/-- `PHONEBOOK_FILENAME` (line 464). -/
def phonebookFilename : Str := ['p', 'h', 'o', 'n', 'e', 'b', 'o', 'o', 'k', '.', 'j', 's', 'o', 'n']

/-- `load_from_disk` (lines 486-488). -/
def loadFromDisk (J : JsonLib) (fs : Fs) (dir : Str) : Except ConfigError Local :=
  loadFromFile J fs (joinPath dir configFilename)

/-- `merge_from_dir` (lines 505-507). -/
def mergeFromDir (J : JsonLib) (fs : Fs) (dir : Str) (self : Local) : Except ConfigError Local :=
  mergeFromFile J fs (joinPath dir configFilename) self

/-- `load_phonebook` (lines 631-644) with its directory. -/
def loadPhonebookDir (J : JsonLib) (fs : Fs) (dir : Str) : Except ConfigError (List Str) :=
  loadPhonebook J fs (joinPath dir phonebookFilename)

/-- `save_to_disk` (lines 557-562): the outcome and the files afterwards. -/
def saveToDisk (expand : Str → Option Str) (fs : Fs) (dir : Str) (c : Local) : Res ConfigError Fs :=
  match expand (joinPath dir configFilename) with
  | none => .panic
  | some p =>
    match saveToFile fs p c with
    | .ok fs => .ok fs
    | .error e => .err e

/-- `save_phonebook_to_disk` (lines 647-660). `writable` says which paths can be opened for writing. -/
def savePhonebookToDisk (J : JsonLib) (expand : Str → Option Str) (writable : Str → Bool) (fs : Fs) (entries : List Str)
    (dir : Str) : Res ConfigError Fs :=
  match expand (joinPath dir phonebookFilename) with
  | none => .panic
  | some p => if writable p then .ok (savePhonebook J fs p entries) else .err .io

/-! ## The root of the global configuration -/

/-- What the operating system says: the home directory, if any, and where directories can be created (unless something is
there). -/
structure World where
  home : Option Str
  creatable : Str → Bool

/-- `GLOBAL_CONFIG_FILE_ROOT` (lines 668-670) and which paths exist. -/
structure RootState where
  root : Str
  there : Str → Bool

/-- `get_default_config_file_path` (lines 702-711). -/
def getDefault (w : World) : Except ConfigError Str :=
  match w.home with
  | some h => .ok (joinPath h ['.', 'a', 'l', 'g', 'o', 'r', 'a', 'n', 'd'])
  | none => .error .io

/-- `fs::create_dir`: fails if there is something already. -/
def createDir (w : World) (p : Str) (s : RootState) : Except ConfigError Unit × RootState :=
  if s.there p = false ∧ w.creatable p = true then (.ok (), { s with there := fun q => if q = p then true else s.there q })
  else (.error .io, s)

/-- `get_global_config_file_root` (lines 680-688): the root is set before the directory is created. -/
def getRoot (w : World) (s : RootState) : Except ConfigError Str × RootState :=
  if s.root = [] then
    match getDefault w with
    | .error e => (.error e, s)
    | .ok p =>
      match createDir w p { s with root := p } with
      | (.error e, s) => (.error e, s)
      | (.ok (), s) => (.ok s.root, s)
  else (.ok s.root, s)

/-- The first half of `set_global_config_file_root` (line 694). -/
def setRead (s : RootState) : Str := s.root

/-- The second half of `set_global_config_file_root` (line 695), which takes the lock a second time. -/
def setWrite (r : Str) (s : RootState) : RootState := { s with root := r }

/-- `set_global_config_file_root` (lines 693-697), if no other thread comes between. -/
def setRoot (r : Str) (s : RootState) : Str × RootState := (setRead s, setWrite r s)

/-- `get_config_file_path` (lines 674-676). -/
def getConfigFilePath (w : World) (file : Str) (s : RootState) : Except ConfigError Str × RootState :=
  match getRoot w s with
  | (.ok r, s) => (.ok (joinPath r file), s)
  | (.error e, s) => (.error e, s)

end Verif.Config
