import Verif.Model.ConfigRoot
import Verif.Model.RootThreads
/-!
# C135-C138: where configuration files are
-/

namespace Verif.Props
open Verif Verif.Config

/-! ## C135: the root of the global configuration -/

/-- `.algorand` in a home directory. -/
def dotAlgorand (home : Str) : Str := home ++ ['/', '.', 'a', 'l', 'g', 'o', 'r', 'a', 'n', 'd']

theorem default_path {w : World} {h : Str} (hw : w.home = some h) (h1 : h ≠ []) (h2 : h.getLast? ≠ some '/') :
    getDefault w = .ok (dotAlgorand h) := by
  rw [getDefault, hw]
  show Except.ok (joinPath h _) = _
  rw [joinPath, if_neg (by decide), if_neg (by simp [h1, h2])]
  rfl

theorem dotAlgorand_ne (h : Str) : dotAlgorand h ≠ [] := by simp [dotAlgorand]

theorem getRoot_set (w : World) (s : RootState) (h : s.root ≠ []) : getRoot w s = (.ok s.root, s) := if_neg h

/-- **C135**, what holds: if `.algorand` is not there and can be created, it is created, nothing else is, and it is the
answer of this call and of every later one. Missing: directories that are there already or cannot be created. -/
theorem C135_first_use_partial (w : World) (h : Str) (s : RootState) (hw : w.home = some h) (h1 : h ≠ [])
    (h2 : h.getLast? ≠ some '/') (h0 : s.root = []) (hn : s.there (dotAlgorand h) = false)
    (hc : w.creatable (dotAlgorand h) = true) :
    ∃ s', getRoot w s = (.ok (dotAlgorand h), s') ∧ (∀ p, s'.there p = true ↔ s.there p = true ∨ p = dotAlgorand h) ∧
      getRoot w s' = (.ok (dotAlgorand h), s') := by
  refine ⟨⟨dotAlgorand h, fun q => if q = dotAlgorand h then true else s.there q⟩, ?_, ?_, ?_⟩
  · rw [getRoot, if_pos h0, default_path hw h1 h2]
    simp only [createDir, hn, hc, and_self, if_true]
  · intro p
    simp only
    split
    · rename_i e; simp [e]
    · rename_i e; simp [e]
  · exact getRoot_set w _ (dotAlgorand_ne h)

/-- **C135**: without a home directory there is an error, on every call, and nothing changes. -/
theorem C135_no_home (w : World) (s : RootState) (hw : w.home = none) (h0 : s.root = []) :
    getRoot w s = (.error .io, s) := by
  rw [getRoot, if_pos h0, getDefault, hw]

/-- C135 is violated: on the machine of every user of whom `.algorand` is there already (or cannot be created), the first
call fails; nothing is created, and the second call and all later ones succeed. -/
theorem C135_violated (w : World) (h : Str) (s : RootState) (hw : w.home = some h) (h1 : h ≠ [])
    (h2 : h.getLast? ≠ some '/') (h0 : s.root = [])
    (hn : s.there (dotAlgorand h) = true ∨ w.creatable (dotAlgorand h) = false) :
    ∃ s', getRoot w s = (.error .io, s') ∧ s'.there = s.there ∧ getRoot w s' = (.ok (dotAlgorand h), s') := by
  refine ⟨⟨dotAlgorand h, s.there⟩, ?_, rfl, getRoot_set w _ (dotAlgorand_ne h)⟩
  rw [getRoot, if_pos h0, default_path hw h1 h2]
  have : ¬ (s.there (dotAlgorand h) = false ∧ w.creatable (dotAlgorand h) = true) := by
    rintro ⟨e1, e2⟩
    rcases hn with e | e
    · rw [e] at e1; cases e1
    · rw [e] at e2; cases e2
  simp only [createDir, if_neg this]

/-- C135 is violated: after a failed call a directory is reported that is not there. -/
theorem C135_violated_not_there :
    ∃ (w : World) (s s' : RootState) (r : Str), (getRoot w s).1 = .error .io ∧ (getRoot w s).2 = s' ∧
      (getRoot w s').1 = .ok r ∧ (getRoot w s').2.there r = false := by
  obtain ⟨s', e1, e2, e3⟩ := C135_violated ⟨some ['/', 'u'], fun _ => false⟩ ['/', 'u'] ⟨[], fun _ => false⟩ rfl (by decide) (by decide)
    rfl (.inr rfl)
  exact ⟨_, _, s', _, by rw [e1], by rw [e1], by rw [e3], by rw [e3, e2]⟩

/-- The hypotheses hold for a new user and for one with the directory. -/
example : (getRoot ⟨some ['/', 'h', 'o', 'm', 'e', '/', 'a'], fun _ => true⟩ ⟨[], fun _ => false⟩).1 = .ok ['/', 'h', 'o', 'm', 'e', '/', 'a', '/', '.', 'a', 'l', 'g', 'o', 'r', 'a', 'n', 'd'] := rfl

example : (getRoot ⟨some ['/', 'h', 'o', 'm', 'e', '/', 'a'], fun _ => true⟩ ⟨[], fun p => p = ['/', 'h', 'o', 'm', 'e', '/', 'a', '/', '.', 'a', 'l', 'g', 'o', 'r', 'a', 'n', 'd']⟩).1 = .error .io := rfl

/-! ## C136: overriding the root -/

/-- Calls one after the other, with the answers. -/
def runRoot (w : World) : List RootCall → RootState → List (Except ConfigError Str) × RootState
  | [], s => ([], s)
  | .get :: l, s =>
    let (a, s) := getRoot w s
    let (as, s) := runRoot w l s
    (a :: as, s)
  | .set r :: l, s =>
    let (a, s) := setRoot r s
    let (as, s) := runRoot w l s
    (.ok a :: as, s)

/-- The answers that are expected, given the current root: a query answers it, overriding answers it and replaces it. -/
def expected : List RootCall → Str → List (Except ConfigError Str)
  | [], _ => []
  | .get :: l, r => .ok r :: expected l r
  | .set r' :: l, r => .ok r :: expected l r'

/-- **C136**, what holds: if the calls come one after the other and no empty path is set, every answer is the root set
last, and no file is touched, whatever the operating system would do. Missing: calls from several threads. -/
theorem C136_calls_partial (w : World) : ∀ (l : List RootCall) (s : RootState), s.root ≠ [] → RootCall.set [] ∉ l →
    (runRoot w l s).1 = expected l s.root ∧ (runRoot w l s).2.there = s.there
  | [], s, _, _ => ⟨rfl, rfl⟩
  | .get :: l, s, h, hl => by
    obtain ⟨h1, h2⟩ := C136_calls_partial w l s h (fun hm => hl (List.mem_cons_of_mem _ hm))
    rw [runRoot, getRoot_set w s h, expected]
    exact ⟨congrArg _ h1, h2⟩
  | .set r :: l, s, h, hl => by
    have hr : r ≠ [] := fun e => hl (by rw [e]; exact List.mem_cons_self ..)
    obtain ⟨h1, h2⟩ := C136_calls_partial w l (setWrite r s) hr (fun hm => hl (List.mem_cons_of_mem _ hm))
    rw [runRoot, expected]
    exact ⟨congrArg _ h1, h2⟩

/-- C136: setting what was returned restores the state, whatever it was. Missing: calls from several threads. -/
theorem C136_restore_partial (r : Str) (s : RootState) : (setRoot (setRoot r s).1 (setRoot r s).2).2 = s := rfl

example : (runRoot ⟨none, fun _ => false⟩ [.get, .set ['/', 't', 'm', 'p', '/', 'a'], .get, .set ['/', 'x'], .get] ⟨['/', 'x'], fun _ => false⟩).1 =
    [.ok ['/', 'x'], .ok ['/', 'x'], .ok ['/', 't', 'm', 'p', '/', 'a'], .ok ['/', 't', 'm', 'p', '/', 'a'], .ok ['/', 'x']] :=
  (C136_calls_partial _ _ _ (by decide) (by decide)).1

/-- A thread that has made no call yet. -/
def fresh (l : List RootCall) : RootThread := ⟨l, none⟩

/-- Every thread makes its calls in its order: those that returned are the first ones of its program. -/
theorem C136_program_order (w : World) (i : Nat) : ∀ (o : List Nat) (s : RootSystem),
    (((s.run w o).1.filter fun d => d.thread = i).map (·.call)) ++ ((s.run w o).2.threads i).todo = (s.threads i).todo
  | [], s => rfl
  | j :: o, s => by
    have ih := C136_program_order w i o (s.step w j).2
    have hs : ((s.step w j).1.toList.filter fun d => d.thread = i).map (·.call) ++ ((s.step w j).2.threads i).todo =
        (s.threads i).todo := by
      unfold RootSystem.step
      by_cases hij : i = j
      · subst hij
        cases ht : (s.threads i).todo with
        | nil => simp [ht]
        | cons c l =>
          cases c with
          | get => simp [RootSystem.put]
          | set r =>
            cases hr : (s.threads i).read <;> simp [RootSystem.put]
      · have hji : ¬ j = i := fun e => hij e.symm
        cases ht : (s.threads j).todo with
        | nil => simp
        | cons c l =>
          cases c with
          | get => simp [RootSystem.put, hij, hji]
          | set r =>
            cases hr : (s.threads j).read <;> simp [RootSystem.put, hij, hji]
    rw [RootSystem.run]
    simp only [List.filter_append, List.map_append, List.append_assoc]
    rw [ih, hs]

/-- **C136**, what holds between threads: if only one thread overrides the root, a root is set and no empty path ever
is, then in every interleaving of any number of threads the answers are those of the same calls made one after the other,
in the order in which they return. Missing: two threads that override (`C136_violated_threads`), and a root that has not
been set (`C136_violated_unset`). -/
theorem C136_one_writer_partial (w : World) (k : Nat) : ∀ (o : List Nat) (s : RootSystem), s.state.root ≠ [] →
    (∀ i, i ≠ k → ∀ c ∈ (s.threads i).todo, c = .get) → RootCall.set [] ∉ (s.threads k).todo →
    ((s.threads k).read = none ∨ (s.threads k).read = some s.state.root) →
    (s.run w o).1.map (·.answer) = expected ((s.run w o).1.map (·.call)) s.state.root ∧
      (s.run w o).2.state.there = s.state.there
  | [], s, _, _, _, _ => ⟨rfl, rfl⟩
  | j :: o, s, h0, hg, hk, hr => by
    rw [RootSystem.run]
    cases ht : (s.threads j).todo with
    | nil =>
      have e : s.step w j = (none, s) := by rw [RootSystem.step, ht]
      rw [e]
      exact C136_one_writer_partial w k o s h0 hg hk hr
    | cons c l =>
      have hput : ∀ r' i, i ≠ k → ∀ c' ∈ (s.put j ⟨l, r'⟩ i).todo, c' = .get := by
        intro r' i hi c' hc'
        unfold RootSystem.put at hc'
        split at hc'
        · next e =>
          subst e
          exact hg i hi c' (by rw [ht]; exact List.mem_cons_of_mem _ hc')
        · exact hg i hi c' hc'
      have hputk : ∀ r', RootCall.set [] ∉ (s.put j ⟨l, r'⟩ k).todo := by
        intro r' hc'
        unfold RootSystem.put at hc'
        split at hc'
        · next e =>
          subst e
          exact hk (by rw [ht]; exact List.mem_cons_of_mem _ hc')
        · exact hk hc'
      cases c with
      | get =>
        have e : s.step w j = (some ⟨j, .get, .ok s.state.root⟩, ⟨s.state, s.put j ⟨l, none⟩⟩) := by
          rw [RootSystem.step, ht]
          simp only [getRoot_set w s.state h0]
        rw [e]
        have hr' : (s.put j ⟨l, none⟩ k).read = none ∨ (s.put j ⟨l, none⟩ k).read = some s.state.root := by
          unfold RootSystem.put
          split
          · exact .inl rfl
          · exact hr
        obtain ⟨h1, h2⟩ := C136_one_writer_partial w k o ⟨s.state, s.put j ⟨l, none⟩⟩ h0 (hput none) (hputk none) hr'
        exact ⟨congrArg (Except.ok s.state.root :: ·) h1, h2⟩
      | set r =>
        have hjk : j = k := Decidable.byContradiction fun hne => by
          have := hg j hne (.set r) (by rw [ht]; exact List.mem_cons_self ..)
          cases this
        subst hjk
        have hrne : r ≠ [] := fun e => hk (by rw [ht, e]; exact List.mem_cons_self ..)
        have hpk : ∀ t, s.put j t j = t := fun t => if_pos rfl
        rcases hr with hr | hr
        · have e : s.step w j = (none, ⟨s.state, s.put j ⟨.set r :: l, some s.state.root⟩⟩) := by
            rw [RootSystem.step, ht]
            simp only [hr]
            rfl
          rw [e]
          refine C136_one_writer_partial w j o ⟨s.state, s.put j ⟨.set r :: l, some s.state.root⟩⟩ h0 ?_ ?_ ?_
          · intro i hi c' hc'
            have : s.put j ⟨.set r :: l, some s.state.root⟩ i = s.threads i := if_neg hi
            simp only [this] at hc'
            exact hg i hi c' hc'
          · simp only [hpk]
            rw [ht] at hk
            exact hk
          · simp only [hpk]
            exact .inr trivial
        · have e : s.step w j = (some ⟨j, .set r, .ok s.state.root⟩, ⟨setWrite r s.state, s.put j ⟨l, none⟩⟩) := by
            rw [RootSystem.step, ht]
            simp only [hr]
          rw [e]
          obtain ⟨h1, h2⟩ := C136_one_writer_partial w j o ⟨setWrite r s.state, s.put j ⟨l, none⟩⟩ hrne (hput none) (hputk none)
            (by simp only [hpk]; exact .inl trivial)
          exact ⟨congrArg (Except.ok s.state.root :: ·) h1, h2⟩

/-- The calls that returned, with their answers, are those of some order of the same calls, one after the other. -/
def SomeOrder (w : World) (s : RootState) (ds : List RootDone) : Prop :=
  ∃ l : List RootDone, l.Perm ds ∧ (runRoot w (l.map (·.call)) s).1 = l.map (·.answer)

theorem perm_two {α : Type} {a b : α} {l : List α} (h : l.Perm [a, b]) : l = [a, b] ∨ l = [b, a] := by
  match l, h.length_eq with
  | [x, y], _ =>
    have hx : x = a ∨ x = b := by
      have := h.mem_iff.1 (List.mem_cons_self (a := x) (l := [y]))
      simpa using this
    rcases hx with e | e
    · subst e
      have := (List.perm_cons x).1 h
      exact .inl (by rw [List.singleton_perm_singleton.1 this])
    · subst e
      have := (List.perm_cons x).1 (h.trans (List.Perm.swap ..))
      exact .inr (by rw [List.singleton_perm_singleton.1 this])

/-- C136 is violated between threads: a thread overrides a root that has not been set yet while another one asks for it.
The one is told that there was no root, the other gets the default one, which no order of the two calls would do: setting
back what was returned does not restore the root that the other thread uses. -/
theorem C136_violated_unset : ∃ (w : World) (s : RootSystem) (o : List Nat), (∀ i, i ≠ 0 → ∀ c ∈ (s.threads i).todo, c = .get) ∧
    RootCall.set [] ∉ (s.threads 0).todo ∧ (∀ i, (s.threads i).read = none) ∧ ¬ SomeOrder w s.state (s.run w o).1 := by
  refine ⟨⟨some ['/', 'u'], fun _ => true⟩, ⟨⟨[], fun _ => false⟩, fun i => fresh (if i = 0 then [.set ['/', 'x']] else if i = 1 then [.get] else [])⟩,
    [0, 1, 0], ?_, ?_, fun _ => rfl, ?_⟩
  · intro i hi c hc
    simp only [fresh, if_neg hi] at hc
    split at hc
    · exact List.mem_singleton.1 hc
    · cases hc
  · decide
  · rintro ⟨l, hl, hr⟩
    have hrun : (RootSystem.run ⟨some ['/', 'u'], fun _ => true⟩ [0, 1, 0] ⟨⟨[], fun _ => false⟩, fun i => fresh (if i = 0 then [.set ['/', 'x']] else if i = 1 then [.get] else [])⟩).1 =
        [⟨1, .get, .ok ['/', 'u', '/', '.', 'a', 'l', 'g', 'o', 'r', 'a', 'n', 'd']⟩, ⟨0, .set ['/', 'x'], .ok []⟩] := rfl
    rw [hrun] at hl
    rcases perm_two hl with e | e
    · subst e
      have := congrArg (fun l => l[1]?) hr
      exact absurd (Except.ok.inj (Option.some.inj this)) (by decide)
    · subst e
      have := congrArg (fun l => l[1]?) hr
      exact absurd (Except.ok.inj (Option.some.inj this)) (by decide)

/-- C136 is violated between threads: two threads that override the root at the same time can both be told the old root,
which no order of the two calls would do. -/
theorem C136_violated_threads (w : World) (s : RootState) (x y : Str) (hx : x ≠ s.root) (hy : y ≠ s.root) :
    ¬ SomeOrder w s (RootSystem.run w [0, 1, 0, 1] ⟨s, fun i => fresh (if i = 0 then [.set x] else if i = 1 then [.set y] else [])⟩).1 := by
  rintro ⟨l, hl, hr⟩
  have hrun : (RootSystem.run w [0, 1, 0, 1] ⟨s, fun i => fresh (if i = 0 then [.set x] else if i = 1 then [.set y] else [])⟩).1 =
      [⟨0, .set x, .ok s.root⟩, ⟨1, .set y, .ok s.root⟩] := rfl
  rw [hrun] at hl
  rcases perm_two hl with e | e
  · subst e
    have := congrArg (fun l => l[1]?) hr
    exact hx (Except.ok.inj (Option.some.inj this))
  · subst e
    have := congrArg (fun l => l[1]?) hr
    exact hy (Except.ok.inj (Option.some.inj this))

example : ['a'] ≠ (RootState.mk ['r'] fun _ => true).root ∧ ['b'] ≠ (RootState.mk ['r'] fun _ => true).root := by decide

/-- The hypotheses of `C136_one_writer_partial` hold, for a query between the two halves of an override. -/
example : ((RootSystem.run ⟨none, fun _ => false⟩ [0, 1, 0, 1] ⟨⟨['r'], fun _ => false⟩, fun i => fresh (if i = 0 then [.set ['x']] else [.get, .get])⟩).1.map (·.answer)) =
    [.ok ['r'], .ok ['r'], .ok ['x']] := by
  refine (C136_one_writer_partial _ 0 [0, 1, 0, 1] _ (by decide) (fun i hi c hc => ?_) (by decide) (.inl rfl)).1.trans rfl
  simp only [fresh, if_neg hi, List.mem_cons, List.not_mem_nil, or_false, or_self] at hc
  exact hc

/-- **C136**: a file of the global configuration lies in the root, under its name, and different names give different
files. -/
theorem C136_path (w : World) (s : RootState) (f g : Str) (h : s.root ≠ []) (hs : s.root.getLast? ≠ some '/')
    (hf : f.head? ≠ some '/') (hg : g.head? ≠ some '/') :
    getConfigFilePath w f s = (.ok (s.root ++ '/' :: f), s) ∧
      ((getConfigFilePath w f s).1 = (getConfigFilePath w g s).1 → f = g) := by
  have key : ∀ f : Str, f.head? ≠ some '/' → getConfigFilePath w f s = (.ok (s.root ++ '/' :: f), s) := by
    intro f hf
    rw [getConfigFilePath, getRoot_set w s h]
    simp only
    rw [joinPath, if_neg hf, if_neg (by simp [h, hs])]
  refine ⟨key f hf, fun e => ?_⟩
  rw [key f hf, key g hg] at e
  simp only [Except.ok.injEq, List.append_cancel_left_eq, List.cons.injEq, true_and] at e
  exact e

/-- A name that begins with `/` is taken as it is, outside of the root. -/
theorem C136_absolute (w : World) (s : RootState) (f : Str) (h : s.root ≠ []) :
    getConfigFilePath w ('/' :: f) s = (.ok ('/' :: f), s) := by
  rw [getConfigFilePath, getRoot_set w s h]
  simp only [joinPath, List.head?_cons, if_true]

example : (getConfigFilePath ⟨none, fun _ => false⟩ ['l', 'o', 'g', 'g', 'i', 'n', 'g', '.', 'c', 'o', 'n', 'f', 'i', 'g'] ⟨['/', 'r'], fun _ => true⟩).1 = .ok ['/', 'r', '/', 'l', 'o', 'g', 'g', 'i', 'n', 'g', '.', 'c', 'o', 'n', 'f', 'i', 'g'] :=
  congrArg Prod.fst (C136_path _ _ _ ['x'] (by decide) (by decide) (by decide) (by decide)).1

/-! ## C137: reading from a directory -/

/-- **C137**: the settings of a directory are read from `config.json` in it, and depend on no other file, nor on the old
settings. -/
theorem C137_config_of_dir (J : JsonLib) (fs : Fs) (dir : Str) (self : Local) (h : dir ≠ []) (hs : dir.getLast? ≠ some '/') :
    loadFromDisk J fs dir = loadFromFile J fs (dir ++ ['/', 'c', 'o', 'n', 'f', 'i', 'g', '.', 'j', 's', 'o', 'n']) ∧
    mergeFromDir J fs dir self = loadFromFile J fs (dir ++ ['/', 'c', 'o', 'n', 'f', 'i', 'g', '.', 'j', 's', 'o', 'n']) ∧
    ∀ fs' : Fs, fs' (dir ++ ['/', 'c', 'o', 'n', 'f', 'i', 'g', '.', 'j', 's', 'o', 'n']) = fs (dir ++ ['/', 'c', 'o', 'n', 'f', 'i', 'g', '.', 'j', 's', 'o', 'n']) → loadFromDisk J fs' dir = loadFromDisk J fs dir := by
  have hp : joinPath dir configFilename = dir ++ ['/', 'c', 'o', 'n', 'f', 'i', 'g', '.', 'j', 's', 'o', 'n'] := by
    rw [joinPath, if_neg (by decide), if_neg (by simp [h, hs])]
    rfl
  rw [loadFromDisk, mergeFromDir, hp]
  refine ⟨rfl, rfl, fun fs' e => ?_⟩
  rw [loadFromDisk, hp, loadFromFile, mergeFromFile, e]
  rfl

/-- C137 with a separator at the end, or in the current directory. -/
theorem C137_separator (J : JsonLib) (fs : Fs) (dir : Str) :
    loadFromDisk J fs (dir ++ ['/']) = loadFromFile J fs (dir ++ ['/', 'c', 'o', 'n', 'f', 'i', 'g', '.', 'j', 's', 'o', 'n']) ∧
    loadFromDisk J fs [] = loadFromFile J fs ['c', 'o', 'n', 'f', 'i', 'g', '.', 'j', 's', 'o', 'n'] := by
  constructor
  · rw [loadFromDisk, joinPath, if_neg (by decide), if_pos (by simp), List.append_assoc]
    rfl
  · rfl

example (J : JsonLib) (fs : Fs) : loadFromDisk J fs ['/', 'd', 'a', 't', 'a'] = loadFromFile J fs ['/', 'd', 'a', 't', 'a', '/', 'c', 'o', 'n', 'f', 'i', 'g', '.', 'j', 's', 'o', 'n'] :=
  (C137_config_of_dir J fs ['/', 'd', 'a', 't', 'a'] Local.default (by decide) (by decide)).1

/-! ## C138: saving to a directory -/

/-- **C138**, what holds: if the expansion of variables leaves the path as it is and the file can be opened, the phonebook
is written to `phonebook.json` in the directory, where `load_phonebook` looks for it, and no other file changes. Missing:
paths that the expansion changes. -/
theorem C138_phonebook_partial (J : JsonLib) (expand : Str → Option Str) (writable : Str → Bool) (fs : Fs)
    (entries : List Str) (dir : Str) (h : dir ≠ []) (hs : dir.getLast? ≠ some '/')
    (he : expand (dir ++ ['/', 'p', 'h', 'o', 'n', 'e', 'b', 'o', 'o', 'k', '.', 'j', 's', 'o', 'n']) = some (dir ++ ['/', 'p', 'h', 'o', 'n', 'e', 'b', 'o', 'o', 'k', '.', 'j', 's', 'o', 'n'])) :
    savePhonebookToDisk J expand writable fs entries dir =
      (if writable (dir ++ ['/', 'p', 'h', 'o', 'n', 'e', 'b', 'o', 'o', 'k', '.', 'j', 's', 'o', 'n']) then .ok (savePhonebook J fs (dir ++ ['/', 'p', 'h', 'o', 'n', 'e', 'b', 'o', 'o', 'k', '.', 'j', 's', 'o', 'n']) entries) else .err .io) ∧
    ∀ fs', loadPhonebookDir J fs' dir = loadPhonebook J fs' (dir ++ ['/', 'p', 'h', 'o', 'n', 'e', 'b', 'o', 'o', 'k', '.', 'j', 's', 'o', 'n']) := by
  have hp : joinPath dir phonebookFilename = dir ++ ['/', 'p', 'h', 'o', 'n', 'e', 'b', 'o', 'o', 'k', '.', 'j', 's', 'o', 'n'] := by
    rw [joinPath, if_neg (by decide), if_neg (by simp [h, hs])]
    rfl
  rw [savePhonebookToDisk, hp, he]
  refine ⟨rfl, fun fs' => ?_⟩
  rw [loadPhonebookDir, hp]

/-- C138 is violated: if the path changes when variables are expanded, the phonebook is written somewhere else, while
loading looks in the directory itself: it finds what was there before. -/
theorem C138_violated (J : JsonLib) (expand : Str → Option Str) (writable : Str → Bool) (fs fs' : Fs) (entries : List Str)
    (dir q : Str) (he : expand (joinPath dir ['p', 'h', 'o', 'n', 'e', 'b', 'o', 'o', 'k', '.', 'j', 's', 'o', 'n']) = some q) (hq : q ≠ joinPath dir ['p', 'h', 'o', 'n', 'e', 'b', 'o', 'o', 'k', '.', 'j', 's', 'o', 'n'])
    (hs : savePhonebookToDisk J expand writable fs entries dir = .ok fs') :
    fs' (joinPath dir ['p', 'h', 'o', 'n', 'e', 'b', 'o', 'o', 'k', '.', 'j', 's', 'o', 'n']) = fs (joinPath dir ['p', 'h', 'o', 'n', 'e', 'b', 'o', 'o', 'k', '.', 'j', 's', 'o', 'n']) ∧
      loadPhonebookDir J fs' dir = loadPhonebookDir J fs dir := by
  rw [savePhonebookToDisk, show phonebookFilename = ['p', 'h', 'o', 'n', 'e', 'b', 'o', 'o', 'k', '.', 'j', 's', 'o', 'n'] from rfl, he] at hs
  simp only at hs
  split at hs
  · injection hs with hs
    have e : fs' (joinPath dir ['p', 'h', 'o', 'n', 'e', 'b', 'o', 'o', 'k', '.', 'j', 's', 'o', 'n']) = fs (joinPath dir ['p', 'h', 'o', 'n', 'e', 'b', 'o', 'o', 'k', '.', 'j', 's', 'o', 'n']) := by
      rw [← hs, savePhonebook, if_neg (Ne.symm hq)]
    refine ⟨e, ?_⟩
    rw [loadPhonebookDir, show phonebookFilename = ['p', 'h', 'o', 'n', 'e', 'b', 'o', 'o', 'k', '.', 'j', 's', 'o', 'n'] from rfl, loadPhonebook, e]
    rfl
  · cases hs

/-- C138 is violated: if the expansion fails, because a variable is not set, saving the phonebook or the settings crashes. -/
theorem C138_violated_panic (J : JsonLib) (expand : Str → Option Str) (writable : Str → Bool) (fs : Fs) (entries : List Str)
    (dir : Str) (c : Local) :
    (expand (joinPath dir ['p', 'h', 'o', 'n', 'e', 'b', 'o', 'o', 'k', '.', 'j', 's', 'o', 'n']) = none → savePhonebookToDisk J expand writable fs entries dir = .panic) ∧
    (expand (joinPath dir ['c', 'o', 'n', 'f', 'i', 'g', '.', 'j', 's', 'o', 'n']) = none → saveToDisk expand fs dir c = .panic) := by
  constructor
  · intro h
    rw [savePhonebookToDisk, show phonebookFilename = ['p', 'h', 'o', 'n', 'e', 'b', 'o', 'o', 'k', '.', 'j', 's', 'o', 'n'] from rfl, h]
  · intro h
    rw [saveToDisk, show configFilename = ['c', 'o', 'n', 'f', 'i', 'g', '.', 'j', 's', 'o', 'n'] from rfl, h]

/-- An expansion that knows one variable `$x`. -/
def expandX (value : Option Str) (s : Str) : Option Str :=
  match s with
  | '$' :: 'x' :: rest => value.map (· ++ rest)
  | s => some s

/-- The hypotheses hold. -/
example (J : JsonLib) : ∃ fs', savePhonebookToDisk J (expandX (some ['/', 'y'])) (fun _ => true) (fun _ => none) [] ['$', 'x'] = .ok fs' ∧
    loadPhonebookDir J fs' ['$', 'x'] = .error .io := by
  refine ⟨_, rfl, ?_⟩
  exact (C138_violated J (expandX (some ['/', 'y'])) (fun _ => true) (fun _ => none) _ [] ['$', 'x'] ['/', 'y', '/', 'p', 'h', 'o', 'n', 'e', 'b', 'o', 'o', 'k', '.', 'j', 's', 'o', 'n'] rfl (by decide)
    rfl).2

example (J : JsonLib) : savePhonebookToDisk J (expandX none) (fun _ => true) (fun _ => none) [] ['$', 'x'] = .panic :=
  (C138_violated_panic J (expandX none) (fun _ => true) (fun _ => none) [] ['$', 'x'] Local.default).1 rfl

example (J : JsonLib) : savePhonebookToDisk J (expandX none) (fun _ => true) (fun _ => none) [['a']] ['/', 'd'] =
    .ok (savePhonebook J (fun _ => none) ['/', 'd', '/', 'p', 'h', 'o', 'n', 'e', 'b', 'o', 'o', 'k', '.', 'j', 's', 'o', 'n'] [['a']]) :=
  (C138_phonebook_partial J (expandX none) (fun _ => true) (fun _ => none) [['a']] ['/', 'd'] (by decide) (by decide) rfl).1

/-- A case of `C135_first_use_partial`: a home without the directory. -/
example : ∃ s', getRoot ⟨some "/home/a".toList, fun _ => true⟩ ⟨[], fun _ => false⟩ = (.ok (dotAlgorand "/home/a".toList), s') ∧
    getRoot ⟨some "/home/a".toList, fun _ => true⟩ s' = (.ok (dotAlgorand "/home/a".toList), s') := by
  obtain ⟨s', h1, _, h2⟩ := C135_first_use_partial ⟨some "/home/a".toList, fun _ => true⟩ "/home/a".toList ⟨[], fun _ => false⟩
    rfl (by decide) (by decide) rfl rfl rfl
  exact ⟨s', h1, h2⟩

/-- A case of `C135_no_home`. -/
example : getRoot ⟨none, fun _ => true⟩ ⟨[], fun _ => false⟩ = (.error .io, ⟨[], fun _ => false⟩) := C135_no_home _ _ rfl rfl

/-- A case of `C135_violated`: the directory is there already. -/
example : ∃ s', getRoot ⟨some "/home/a".toList, fun _ => true⟩ ⟨[], fun _ => true⟩ = (.error .io, s') ∧
    getRoot ⟨some "/home/a".toList, fun _ => true⟩ s' = (.ok (dotAlgorand "/home/a".toList), s') := by
  obtain ⟨s', h1, _, h2⟩ := C135_violated ⟨some "/home/a".toList, fun _ => true⟩ "/home/a".toList ⟨[], fun _ => true⟩
    rfl (by decide) (by decide) rfl (.inl rfl)
  exact ⟨s', h1, h2⟩

end Verif.Props
