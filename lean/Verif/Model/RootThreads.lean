import Verif.Model.ConfigRoot

/-!
Model of several threads that use the root of the global configuration, src/config/mod.rs lines 668-697. The root is a
`RwLock`, so that whatever is done under one lock is one step. `get_global_config_file_root` holds the lock from line 681
to its end: one step. `set_global_config_file_root` takes the lock twice, in line 694 for reading and in line 695 for
writing, and lets it go between: two steps. Threads take turns in any order. Not modelled: a thread that panics (none of
these functions does), other users of the directory.
-/
namespace Verif.Config

/-- A call of the functions for the root. -/
inductive RootCall where
  | get
  | set (r : Str)
  deriving DecidableEq

/-- A thread: the calls it still makes, the first of which it may be in; then `read` is what line 694 gave. -/
structure RootThread where
  todo : List RootCall
  read : Option Str

/-- The root and the threads, which are numbered. -/
structure RootSystem where
  state : RootState
  threads : Nat → RootThread

/-- A call that has returned: the thread, the call, the answer. -/
structure RootDone where
  thread : Nat
  call : RootCall
  answer : Except ConfigError Str

/-- Thread `i` is in the state `t`. -/
def RootSystem.put (s : RootSystem) (i : Nat) (t : RootThread) : Nat → RootThread :=
  fun j => if j = i then t else s.threads j

/-- Thread `i` takes its next step (lines 681-687, line 694, or lines 695-696). -/
def RootSystem.step (w : World) (i : Nat) (s : RootSystem) : Option RootDone × RootSystem :=
  match (s.threads i).todo with
  | [] => (none, s)
  | .get :: l =>
    let (a, st) := getRoot w s.state
    (some ⟨i, .get, a⟩, ⟨st, s.put i ⟨l, none⟩⟩)
  | .set r :: l =>
    match (s.threads i).read with
    | none => (none, ⟨s.state, s.put i ⟨.set r :: l, some (setRead s.state)⟩⟩)
    | some old => (some ⟨i, .set r, .ok old⟩, ⟨setWrite r s.state, s.put i ⟨l, none⟩⟩)

/-- The threads take steps in the given order; the calls that returned, in the order in which they did. -/
def RootSystem.run (w : World) : List Nat → RootSystem → List RootDone × RootSystem
  | [], s => ([], s)
  | i :: is, s =>
    match s.step w i with
    | (d, s) =>
      let (ds, s) := s.run w is
      (d.toList ++ ds, s)

end Verif.Config
