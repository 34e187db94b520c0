import Verif.Model.FileSave
import Verif.Props.Algokey
import Verif.Props.JsonText
/-!
# Properties of files that are replaced (C157, C158)
-/

namespace Verif.Props
open Verif Verif.Files Verif.Algokey Verif.Mnemonic

/-- The permissions of a file give nothing to the group and to others. -/
def OwnerOnly {α : Type} (f : File α) : Prop := f.mode &&& 0o077 = 0

/-- What a replaced file can hold: the old contents, or the first part of the new ones. -/
theorem replace_cases {α : Type} (umask : Nat) (stop : Cut) (mode : Nat) (data : List α) (old : Option (File α)) :
    (replace umask stop mode data old = (false, old)) ∨
    (∃ k, k < data.length ∧ replace umask stop mode data old = (false, some ⟨data.take k, modeOf old mode umask⟩)) ∨
    replace umask stop mode data old = (true, some ⟨data, modeOf old mode umask⟩) := by
  cases stop with
  | opening => exact .inl rfl
  | never => exact .inr (.inr rfl)
  | after k =>
    by_cases h : data.length ≤ k
    · exact .inr (.inr (by simp [replace, h]))
    · exact .inr (.inl ⟨k, by omega, by simp [replace, h]⟩)

theorem newMode_owner (umask : Nat) : (0o600 &&& (0o777 ^^^ (umask &&& 0o777))) &&& 0o077 = 0 := by
  rw [Nat.land_assoc, Nat.land_comm (_ ^^^ _), ← Nat.land_assoc]
  exact Nat.zero_and _

/-- The permissions after replacing. -/
theorem replace_owner {α : Type} (umask : Nat) (stop : Cut) (data : List α) (old : Option (File α))
    (h : ∀ f, old = some f → OwnerOnly f) : ∀ f, (replace umask stop 0o600 data old).2 = some f → OwnerOnly f := by
  have hm : ∀ c : List α, OwnerOnly ⟨c, modeOf old 0o600 umask⟩ := fun c => by
    cases old with
    | none => exact newMode_owner umask
    | some f => exact h f rfl
  intro f hf
  rcases replace_cases umask stop 0o600 data old with e | ⟨k, _, e⟩ | e
  · rw [e] at hf; exact h f hf
  · rw [e] at hf; injection hf with hf; subst hf; exact hm _
  · rw [e] at hf; injection hf with hf; subst hf; exact hm _

/-! ## C157: private keys are private -/

/-- What both commands do with the files. -/
theorem writes_owner (m : Machine) (seed addr : Bytes) (sk pk : Text) (hne : sk ≠ pk)
    (h : ∀ f, m.files sk = some f → OwnerOnly f) :
    (∀ f, (ifNamed pk (ifNamed sk m (m.writeSk sk seed)).1 ((ifNamed sk m (m.writeSk sk seed)).1.writePk pk addr)).1.files sk =
      some f → OwnerOnly f) ∧
    (∀ n, n ≠ sk → n ≠ pk →
      (ifNamed pk (ifNamed sk m (m.writeSk sk seed)).1 ((ifNamed sk m (m.writeSk sk seed)).1.writePk pk addr)).1.files n =
        m.files n) ∧
    (∀ f, (ifNamed pk (ifNamed sk m (m.writeSk sk seed)).1 ((ifNamed sk m (m.writeSk sk seed)).1.writePk pk addr)).1.files pk =
      some f → m.files pk = some f ∨ ∃ k, f.content = addr.take k) := by
  have hsk : ∀ f, (ifNamed sk m (m.writeSk sk seed)).1.files sk = some f → OwnerOnly f := by
    intro f hf
    rw [ifNamed] at hf
    split at hf
    · exact h f hf
    · simp only [Machine.writeSk, Machine.write, if_true] at hf
      exact replace_owner _ _ _ _ h f hf
  have hother : ∀ n, n ≠ sk → (ifNamed sk m (m.writeSk sk seed)).1.files n = m.files n := by
    intro n hn
    rw [ifNamed]
    split
    · rfl
    · simp [Machine.writeSk, Machine.write, hn]
  generalize (ifNamed sk m (m.writeSk sk seed)).1 = m1 at hsk hother
  refine ⟨fun f hf => ?_, fun n h1 h2 => ?_, fun f hf => ?_⟩
  · rw [ifNamed] at hf
    split at hf
    · exact hsk f hf
    · simp only [Machine.writePk, Machine.write, if_neg hne] at hf
      exact hsk f hf
  · rw [ifNamed]
    split
    · exact hother n h1
    · simp only [Machine.writePk, Machine.write, if_neg h2]
      exact hother n h1
  · rw [ifNamed] at hf
    split at hf
    · left; rw [← hother pk (Ne.symm hne)]; exact hf
    · simp only [Machine.writePk, Machine.write, if_true] at hf
      rcases replace_cases m1.umask (m1.stop pk) 0o666 addr (m1.files pk) with e | ⟨k, _, e⟩ | e
      · rw [e] at hf; left; rw [← hother pk (Ne.symm hne)]; exact hf
      · rw [e] at hf; injection hf with hf; subst hf; exact .inr ⟨k, rfl⟩
      · rw [e] at hf; injection hf with hf; subst hf; exact .inr ⟨addr.length, by simp⟩

/-- **C157**, what holds: if there is no file with the name of the private key yet, or one only its owner can use, then after
`generate` and `import`, finished or not, the private key is in a file only its owner can use; no other file gets anything
but the address. Missing: a file that others can read already. -/
theorem C157_private_partial (L : Algokey.Lib) (hL : GoodLib L) (seed : Bytes) (hs : seed.length = 32) (sk pk : Text)
    (hne : sk ≠ pk) (m : Machine) (h : ∀ f, m.files sk = some f → OwnerOnly f) :
    ∀ e : Effect, (e = Files.generate L seed sk pk m ∨
        ∃ phrase, phraseToKey englishWords L.hash phrase = .ok seed ∧ e = Files.importKey L phrase sk pk m) →
      (∀ f, e.machine.files sk = some f → OwnerOnly f) ∧
      (∀ n, n ≠ sk → n ≠ pk → e.machine.files n = m.files n) ∧
      ∃ addr, Address.fromStr L.hash addr = .ok (L.pubOf seed) ∧
        ∀ f, e.machine.files pk = some f → m.files pk = some f ∨ ∃ k, f.content = addr.take k := by
  obtain ⟨ws, m1, _⟩ := phrase_of_seed hL seed hs
  obtain ⟨a, a1, _, a3⟩ := address_of_seed hL seed
  obtain ⟨w1, w2, w3⟩ := writes_owner m seed a sk pk hne h
  rintro e (rfl | ⟨phrase, hp, rfl⟩)
  · rw [Files.generate, m1, a1]
    exact ⟨w1, w2, a, a3, w3⟩
  · rw [Files.importKey, hp]
    simp only [a1]
    exact ⟨w1, w2, a, a3, w3⟩

/-- **C157**: a new private key file has exactly the permissions to read and write for its owner, unless the `umask` takes
these away. -/
theorem C157_new_file (L : Algokey.Lib) (hL : GoodLib L) (seed : Bytes) (hs : seed.length = 32) (sk pk : Text) (hsk : sk ≠ [])
    (hne : sk ≠ pk) (m : Machine) (hnew : m.files sk = none) (hstop : m.stop sk = .never) (hu : m.umask &&& 0o700 = 0) :
    (Files.generate L seed sk pk m).machine.files sk = some ⟨seed, 0o600⟩ := by
  obtain ⟨ws, m1, _⟩ := phrase_of_seed hL seed hs
  obtain ⟨a, a1, _, _⟩ := address_of_seed hL seed
  have hmode : 0o600 &&& (0o777 ^^^ (m.umask &&& 0o777)) = 0o600 := by
    have h2 : 0o600 &&& (m.umask &&& 0o777) = 0 := by
      have : (0o600 : Nat) &&& (m.umask &&& 0o777) = (m.umask &&& 0o700) &&& 0o600 := by
        rw [Nat.land_comm, Nat.land_assoc, Nat.land_assoc]; rfl
      rw [this, hu]; exact Nat.zero_and _
    rw [Nat.and_xor_distrib_left, h2]; rfl
  rw [Files.generate, m1, a1]
  have hfirst : (ifNamed sk m (m.writeSk sk seed)).1.files sk = some ⟨seed, 0o600⟩ := by
    rw [ifNamed, if_neg hsk]
    simp only [Machine.writeSk, Machine.write, if_true, hstop, hnew, replace, modeOf, hmode]
  generalize (ifNamed sk m (m.writeSk sk seed)) = x at hfirst ⊢
  simp only
  rw [ifNamed]
  split
  · exact hfirst
  · simp only [Machine.writePk, Machine.write, if_neg hne]; exact hfirst

/-- **C157** fails: a file that exists keeps its permissions, so that a private key written to a file others can read is
there for others to read. -/
theorem C157_violated (L : Algokey.Lib) (hL : GoodLib L) (seed : Bytes) (hs : seed.length = 32) (sk pk : Text) (hsk : sk ≠ [])
    (hne : sk ≠ pk) (m : Machine) (old : File UInt8) (hold : m.files sk = some old) (hstop : m.stop sk = .never)
    (hopen : ¬ OwnerOnly old) :
    ∃ f, (Files.generate L seed sk pk m).machine.files sk = some f ∧ f.content = seed ∧ ¬ OwnerOnly f := by
  obtain ⟨ws, m1, _⟩ := phrase_of_seed hL seed hs
  obtain ⟨a, a1, _, _⟩ := address_of_seed hL seed
  refine ⟨⟨seed, old.mode⟩, ?_, rfl, hopen⟩
  rw [Files.generate, m1, a1]
  have hfirst : (ifNamed sk m (m.writeSk sk seed)).1.files sk = some ⟨seed, old.mode⟩ := by
    rw [ifNamed, if_neg hsk]
    simp only [Machine.writeSk, Machine.write, if_true, hstop, hold, replace, modeOf]
  generalize (ifNamed sk m (m.writeSk sk seed)) = x at hfirst ⊢
  simp only
  rw [ifNamed]
  split
  · exact hfirst
  · simp only [Machine.writePk, Machine.write, if_neg hne]; exact hfirst

example : ¬ OwnerOnly (⟨[], 0o644⟩ : File UInt8) ∧ OwnerOnly (⟨[], 0o600⟩ : File UInt8) := by
  simp [OwnerOnly]

/-- Where writing does not stop in the middle, the contents of the files, the lines and the exit are those of
`Verif.Algokey`, whose theorems carry over. -/
theorem C157_refines (L : Algokey.Lib) (seed : Bytes) (sk pk : Text) (m : Machine) (h : ∀ n k, m.stop n ≠ .after k) :
    Algokey.generate L seed sk pk m.world =
      ⟨(Files.generate L seed sk pk m).machine.world, (Files.generate L seed sk pk m).lines,
        (Files.generate L seed sk pk m).exit⟩ ∧
    ∀ phrase, Algokey.importKey L phrase sk pk m.world =
      ⟨(Files.importKey L phrase sk pk m).machine.world, (Files.importKey L phrase sk pk m).lines,
        (Files.importKey L phrase sk pk m).exit⟩ := by
  have hw : ∀ (m : Machine) (name : Text) (mode : Nat) (data : Bytes), (∀ n k, m.stop n ≠ .after k) →
      m.world.writeIfNamed name data =
        ((ifNamed name m (m.write name mode data)).1.world, (ifNamed name m (m.write name mode data)).2) ∧
      (ifNamed name m (m.write name mode data)).1.stop = m.stop := by
    intro m name mode data h
    rw [World.writeIfNamed, ifNamed]
    by_cases hn : name = []
    · simp [hn]
    · rw [if_neg hn, if_neg hn]
      cases hs : m.stop name with
      | after k => exact absurd hs (h name k)
      | opening =>
        have hid : (fun n => if n = name then m.files name else m.files n) = m.files := by
          funext n; split <;> simp_all
        simp [World.write, Machine.world, hs, Machine.write, replace, hid]
      | never =>
        simp only [World.write, Machine.world, hs, Machine.write, replace]
        refine ⟨?_, trivial⟩
        simp only [ne_eq, reduceCtorEq, not_false_eq_true, decide_true, if_true, Prod.mk.injEq, and_true,
          World.mk.injEq]
        funext n
        split <;> simp
  have h2 : ∀ (seed addr : Bytes), ∃ m1 e1 m2 e2, ifNamed sk m (m.writeSk sk seed) = (m1, e1) ∧
      ifNamed pk m1 (m1.writePk pk addr) = (m2, e2) ∧ m.world.writeIfNamed sk seed = (m1.world, e1) ∧
      m1.world.writeIfNamed pk addr = (m2.world, e2) := by
    intro seed addr
    obtain ⟨a, b⟩ := hw m sk 0o600 seed h
    exact ⟨_, _, _, _, rfl, rfl, a, (hw (ifNamed sk m (m.write sk 0o600 seed)).1 pk 0o666 addr (fun n k => by rw [b]; exact h n k)).1⟩
  constructor
  · rw [Algokey.generate, Files.generate]
    cases keyToMnemonic englishWords L.hash seed with
    | ok words =>
      cases addressOf L seed with
      | ok addr =>
        obtain ⟨m1, e1, m2, e2, a, b, c, d⟩ := h2 seed addr
        simp [a, b, c, d]
      | err e => simp
      | panic => simp
    | err e => simp
    | panic => simp
  · intro phrase
    rw [Algokey.importKey, Files.importKey]
    cases hp : phraseToKey englishWords L.hash phrase with
    | ok seed =>
      cases ha : addressOf L seed with
      | ok addr =>
        obtain ⟨m1, e1, m2, e2, a, b, c, d⟩ := h2 seed addr
        simp only [ha, a, b, c, d]
      | err e => exact nomatch e
      | panic => simp only [ha]
    | err e => rfl
    | panic => rfl

/-! ## C158: an interrupted save -/
open Verif.Config Verif.Consensus

/-- An object is read the same whatever follows it. -/
theorem value_object {d : Nat} {l : List (Str × Json)} {p : Str} (h : JVal d (.obj l) p) (k : Nat) (hk : p.length ≤ k)
    (r : Str) : value k d (p ++ r) = some (.obj l, r) := by
  cases k with
  | zero =>
    obtain ⟨c, t, rfl, _⟩ := JVal_first h
    simp at hk
  | succ k =>
    cases h with
    | num h => cases h
    | obj0 hw =>
      rw [List.cons_append, List.append_assoc, List.singleton_append, value.eq_def]
      simp only
      rw [if_neg (by decide), if_neg (by decide), if_neg (by decide), if_neg (by decide), if_neg (by decide),
        if_pos trivial, skipWs_app hw, skipWs_stop (by decide)]
      rfl
    | obj hw hl =>
      rename_i d w e
      obtain ⟨c, t, hce, h1, h2⟩ := JMems_first hl
      have hk' : e.length < k := by simp at hk; omega
      have h3 := (value_complete k).2.2 _ _ _ r hl hk'
      rw [List.cons_append, List.append_assoc, List.append_assoc, List.singleton_append, value.eq_def]
      simp only
      rw [if_neg (by decide), if_neg (by decide), if_neg (by decide), if_neg (by decide), if_neg (by decide),
        if_pos trivial, skipWs_app hw]
      rw [hce, List.cons_append] at h3 ⊢
      rw [skipWs_stop h1]
      simp only
      rw [if_neg h2, h3]
      rfl

theorem object_first {d : Nat} {l : List (Str × Json)} {p : Str} (h : JVal d (.obj l) p) : ∃ t, p = '{' :: t := by
  cases h with
  | num h => cases h
  | obj0 _ => exact ⟨_, rfl⟩
  | obj _ _ => exact ⟨_, rfl⟩

/-- Only objects begin with a brace. -/
theorem brace_object {d : Nat} {j : Json} {t : Str} (h : JVal d j ('{' :: t)) : ∃ l, j = .obj l := by
  cases h with
  | num h =>
    rcases JNum_first h with ⟨ds, f, e, he, _⟩ | ⟨ds, f, e, he, hi, _⟩
    · simp at he
    · obtain ⟨c, t, rfl, hc⟩ := JInt_first hi
      simp only [List.cons_append, List.cons.injEq] at he
      rw [← he.1] at hc
      exact absurd hc (by decide)
  | str h => obtain ⟨e, _, he⟩ := h; simp at he
  | obj0 _ => exact ⟨_, rfl⟩
  | obj _ _ => exact ⟨_, rfl⟩

/-- No proper beginning of the text of an object is JSON. -/
theorem object_prefix {d : Nat} {l : List (Str × Json)} {p : Str} (h : JVal d (.obj l) p) (k : Nat) (hk : k < p.length)
    (j : Json) : ¬ JText d j (p.take k) := by
  rintro ⟨w, q, w', e, hw, hq, hw'⟩
  obtain ⟨t, ht⟩ := object_first h
  have hne : p.take k ≠ [] := by
    rw [e]
    obtain ⟨c, u, rfl, _⟩ := JVal_first hq
    simp
  cases k with
  | zero => exact hne (List.take_zero)
  | succ k =>
    have hwnil : w = [] := by
      cases w with
      | nil => rfl
      | cons c w =>
        rw [ht, List.take_succ_cons, List.cons_append] at e
        injection e with e _
        exact absurd (hw c List.mem_cons_self) (by rw [← e]; decide)
    subst hwnil
    obtain ⟨c, u, hcu, _⟩ := JVal_first hq
    have hq' : q = '{' :: u := by
      rw [ht, List.take_succ_cons, hcu, List.nil_append, List.cons_append] at e
      injection e with e _
      rw [hcu, e]
    obtain ⟨l', rfl⟩ := brace_object (hq' ▸ hq)
    have hp : p = q ++ (w' ++ p.drop (k + 1)) := by
      rw [← List.append_assoc]
      rw [List.nil_append] at e
      rw [← e, List.take_append_drop]
    have h1 := value_object h p.length le_rfl []
    have h2 := value_object hq p.length (by rw [hp]; simp) (w' ++ p.drop (k + 1))
    rw [← hp] at h2
    rw [List.append_nil, h2] at h1
    injection h1 with h1
    injection h1 with _ h1
    have : (p.drop (k + 1)).length = 0 := by
      have := congrArg List.length h1
      simp at this; simp; omega
    simp at this; omega

theorem table_object (params : Protocols) : ∃ l, tableJson params = .obj l := ⟨_, rfl⟩

/-- Without an interruption this is the `saveFile` of C143. -/
theorem C158_refines (J : JsonLib) (umask : Nat) (fs : ModeFs) (dir : Str) (params : Protocols) :
    saveFile J (contents fs) dir params = (match saveConsensus J umask .never fs dir params with
      | (.ok _, fs') => .ok (contents fs')
      | (.err e, _) => .err e
      | (.panic, _) => .panic) := by
  have hput : ∀ old : Option (File Char), (fun p => if p = joinPath dir overrideFilename then
      some (J.print (tableJson params)) else contents fs p) = contents (fun p => if p = joinPath dir overrideFilename then
        (replace umask .never 0o644 (J.print (tableJson params)) old).2 else fs p) := by
    intro old
    funext p
    simp only [contents]
    split <;> simp [replace]
  have hn : ∀ old : Option (File Char), (replace umask .never 0o644 (J.print (tableJson params)) old).1 = true :=
    fun _ => rfl
  rw [saveFile, saveConsensus]
  simp only [hn, if_true]
  by_cases h : params.isEmpty = true
  · rw [if_pos h, if_pos h]
    cases hf : fs (joinPath dir overrideFilename) with
    | none => simp [contents, hf]
    | some f =>
      have : contents fs (joinPath dir overrideFilename) = some f.content := by simp [contents, hf]
      rw [this]
      simp only [hput none]
  · rw [if_neg h, if_neg h]
    simp only [hput (fs (joinPath dir overrideFilename))]

/-- **C158**, what holds for overrides: whatever the save was interrupted by, the file is the old one, or holds all of the
new overrides, or is a beginning of their text, and then it is refused; overrides other than the old and the new ones are
never loaded. The save reports success exactly if it is complete, and other files are left alone. Missing: the old
overrides are not kept. -/
theorem C158_never_misread_partial (umask : Nat) (stop : Cut) (fs fs' : ModeFs) (dir : Str) (params consensus : Protocols)
    (res : Res FileError Unit) (ht : TypedTable params) (h : saveConsensus serdeJson umask stop fs dir params = (res, fs')) :
    let path := joinPath dir ['c', 'o', 'n', 's', 'e', 'n', 's', 'u', 's', '.', 'j', 's', 'o', 'n']
    (∀ p, p ≠ path → fs' p = fs p) ∧
    (res = .ok () → ∃ text, (fs' path).map (·.content) = some text ∧ JText 127 (tableJson params) text) ∧
    (res ≠ .ok () →
      (contents fs' path = none ∧ params = []) ∨ fs' path = fs path ∨
      ∃ text k, JText 127 (tableJson params) text ∧ k < text.length ∧ contents fs' path = some (text.take k) ∧
        loadFile serdeJson (contents fs') dir consensus = .err .other) := by
  intro path
  obtain ⟨l, hl⟩ := table_object params
  have hval : JVal 127 (tableJson params) (serdeJson.print (tableJson params)) := jsonText_ok (table_plain 124 params ht) 0
  obtain ⟨hJ, _⟩ := C152_written _ (table_plain 124 params ht)
  -- one replacement
  have key : ∀ old : Option (File Char), (old = fs path ∨ old = none ∧ params = []) →
      (let r := replace umask stop 0o644 (serdeJson.print (tableJson params)) old
       ((if r.1 then Res.ok () else .err .other, fun p => if p = path then r.2 else fs p) : Res FileError Unit × ModeFs)) =
        (res, fs') →
      (∀ p, p ≠ path → fs' p = fs p) ∧
      (res = .ok () → ∃ text, (fs' path).map (·.content) = some text ∧ JText 127 (tableJson params) text) ∧
      (res ≠ .ok () →
        (contents fs' path = none ∧ params = []) ∨ fs' path = fs path ∨
        ∃ text k, JText 127 (tableJson params) text ∧ k < text.length ∧ contents fs' path = some (text.take k) ∧
          loadFile serdeJson (contents fs') dir consensus = .err .other) := by
    intro old hold h
    simp only [Prod.mk.injEq] at h
    obtain ⟨h1, rfl⟩ := h
    refine ⟨fun p hp => if_neg hp, ?_, ?_⟩
    · intro hr
      refine ⟨_, ?_, hJ⟩
      simp only [if_true]
      rcases replace_cases umask stop 0o644 (serdeJson.print (tableJson params)) old with e | ⟨k, hk, e⟩ | e
      · rw [e] at h1; rw [← h1] at hr; cases hr
      · rw [e] at h1; rw [← h1] at hr; cases hr
      · rw [e]; rfl
    · intro hr
      rcases replace_cases umask stop 0o644 (serdeJson.print (tableJson params)) old with e | ⟨k, hk, e⟩ | e
      · rcases hold with ho | ⟨ho, hp⟩
        · right; left; simp only [if_true, e]; exact ho
        · left; refine ⟨?_, hp⟩
          subst ho
          simp only [contents, if_true, e]; rfl
      · right; right
        have hc : contents (fun p => if p = path then
            (replace umask stop 0o644 (serdeJson.print (tableJson params)) old).2 else fs p) path =
            some ((serdeJson.print (tableJson params)).take k) := by
          simp only [contents, if_true, e]; rfl
        refine ⟨_, k, hJ, hk, hc, ?_⟩
        rw [C152_overrides_refused _ dir _ consensus hc]
        rintro ⟨j, t, hj, _⟩
        rw [hl] at hval
        exact object_prefix (hl ▸ hval) k hk j (hl ▸ hj)
      · rw [e] at h1; exact absurd h1.symm hr
  rw [saveConsensus] at h
  simp only at h
  split at h
  · rename_i hemp
    have hpe : params = [] := by simpa using hemp
    split at h
    · simp only [Prod.mk.injEq] at h
      obtain ⟨rfl, rfl⟩ := h
      exact ⟨fun _ _ => rfl, fun h => (nomatch h), fun _ => .inr (.inl rfl)⟩
    · exact key none (.inr ⟨rfl, hpe⟩) h
  · exact key _ (.inl rfl) h

/-- **C158** fails for overrides: wherever writing stops before the end, the old overrides are gone and the new ones are not
there; loading fails, and in the working directory every use of the consensus parameters crashes. -/
theorem C158_overrides_violated (umask k : Nat) (fs : ModeFs) (dir : Str) (params consensus : Protocols)
    (ht : TypedTable params) (hne : params ≠ []) (hk : k < (serdeJson.print (tableJson params)).length) :
    ∃ fs', saveConsensus serdeJson umask (.after k) fs dir params = (.err .other, fs') ∧
      loadFile serdeJson (contents fs') dir consensus = .err .other ∧
      (dir = ['.'] → globalConsensus serdeJson (contents fs') = .panic) := by
  have hsave : saveConsensus serdeJson umask (.after k) fs dir params = (.err .other, fun p =>
      if p = joinPath dir overrideFilename then some ⟨(serdeJson.print (tableJson params)).take k,
        modeOf (fs (joinPath dir overrideFilename)) 0o644 umask⟩ else fs p) := by
    rw [saveConsensus]
    simp only
    rw [if_neg (by simpa using hne)]
    simp only [replace, if_neg (show ¬ (serdeJson.print (tableJson params)).length ≤ k by omega)]
    rfl
  have hcont : contents (fun p => if p = joinPath dir overrideFilename then
      some ⟨(serdeJson.print (tableJson params)).take k, modeOf (fs (joinPath dir overrideFilename)) 0o644 umask⟩
      else fs p) (joinPath dir overrideFilename) = some ((serdeJson.print (tableJson params)).take k) := by
    simp [contents]
  have hval : JVal 127 (tableJson params) (serdeJson.print (tableJson params)) := jsonText_ok (table_plain 124 params ht) 0
  have hno : ¬ ∃ j t, JText 127 j ((serdeJson.print (tableJson params)).take k) ∧ IsTable j t := by
    rintro ⟨j, t, hj, _⟩
    exact object_prefix hval k hk j hj
  refine ⟨_, hsave, (C152_overrides_refused _ dir _ consensus hcont).2 hno, ?_⟩
  rintro rfl
  refine (C144_global serdeJson _).2 _ hcont ?_
  simp only [C152_reads]
  exact hno

example : TypedTable builtin ∧ builtin ≠ [] ∧ 0 < (serdeJson.print (tableJson builtin)).length := by
  refine ⟨builtin_typed, by decide +kernel, ?_⟩
  obtain ⟨c, t, h, _⟩ := JVal_first (jsonText_ok (table_plain 124 builtin builtin_typed) 0)
  show 0 < (jsonText (tableJson builtin) 0).length
  rw [h]; simp

/-- **C158** for key files: after an interrupted `generate` the private key file is the old one, or holds the new key, or is
too short, and then `export` and `sign` refuse it; another key is never read from it. Missing: the old key is not kept. -/
theorem C158_key_partial (L : Algokey.Lib) (hL : GoodLib L) (seed : Bytes) (hs : seed.length = 32) (sk pk : Text)
    (hne : sk ≠ pk) (m : Machine) :
    (Files.generate L seed sk pk m).machine.files sk = m.files sk ∨
    (Files.generate L seed sk pk m).machine.world.loadSk sk = some seed ∨
    ((Files.generate L seed sk pk m).machine.world.loadSk sk = none ∧ ∃ k, k < 32 ∧
      ((Files.generate L seed sk pk m).machine.files sk).map (·.content) = some (seed.take k)) := by
  obtain ⟨ws, m1, _⟩ := phrase_of_seed hL seed hs
  obtain ⟨a, a1, _, _⟩ := address_of_seed hL seed
  have hfirst : (ifNamed sk m (m.writeSk sk seed)).1.files sk = m.files sk ∨
      (∃ f, (ifNamed sk m (m.writeSk sk seed)).1.files sk = some f ∧ f.content = seed) ∨
      ∃ f k, k < 32 ∧ (ifNamed sk m (m.writeSk sk seed)).1.files sk = some f ∧ f.content = seed.take k := by
    rw [ifNamed]
    split
    · exact .inl rfl
    · simp only [Machine.writeSk, Machine.write, if_true]
      rcases replace_cases m.umask (m.stop sk) 0o600 seed (m.files sk) with e | ⟨k, hk, e⟩ | e
      · rw [e]; exact .inl rfl
      · rw [e]; exact .inr (.inr ⟨_, k, by omega, rfl, rfl⟩)
      · rw [e]; exact .inr (.inl ⟨_, rfl, rfl⟩)
  have hfiles : (Files.generate L seed sk pk m).machine.files sk = (ifNamed sk m (m.writeSk sk seed)).1.files sk := by
    rw [Files.generate, m1, a1]
    simp only
    rw [ifNamed]
    split
    · rfl
    · simp only [Machine.writePk, Machine.write, if_neg hne]
  simp only [World.loadSk, Machine.world, hfiles]
  rcases hfirst with h | ⟨f, h, hf⟩ | ⟨f, k, hk, h, hf⟩
  · exact .inl h
  · right; left
    rw [h]
    simp [hf, hs, List.take_of_length_le]
  · right; right
    rw [h]
    refine ⟨?_, k, hk, by simp [hf]⟩
    simp [hf, hs]; omega

/-- **C158** fails for key files: the old key is destroyed when writing the new one stops in the middle, and `generate` still
ends normally. -/
theorem C158_key_violated (L : Algokey.Lib) (hL : GoodLib L) (seed : Bytes) (hs : seed.length = 32) (sk : Text) (hsk : sk ≠ [])
    (k : Nat) (hk : k < 32) (m : Machine) (hm : m.stop sk = .after k) :
    (Files.generate L seed sk [] m).exit = .done ∧ (Files.generate L seed sk [] m).machine.world.loadSk sk = none := by
  obtain ⟨ws, m1, _⟩ := phrase_of_seed hL seed hs
  obtain ⟨a, a1, _, _⟩ := address_of_seed hL seed
  rw [Files.generate, m1, a1]
  refine ⟨rfl, ?_⟩
  simp only [ifNamed, if_neg hsk, if_true, World.loadSk, Machine.world, Machine.writeSk, Machine.write, hm, replace, hs,
    if_neg (show ¬ 32 ≤ k by omega)]
  simp [hs]; omega

example : ∃ m : Machine, m.stop ['k'] = .after 5 ∧ m.world.loadSk ['k'] = some (List.replicate 32 7) :=
  ⟨⟨fun _ => some ⟨List.replicate 32 7, 0o600⟩, 0o022, fun _ => .after 5⟩, rfl, rfl⟩

/-! ## Cases -/

/-- An empty machine with the usual umask, where every write succeeds. -/
def freshMachine : Machine := ⟨fun _ => none, 0o022, fun _ => .never⟩

/-- A case of `C157_new_file`, `C157_private_partial` and `C158_key_partial`: a key written to the file `a`. -/
example : (Files.generate toyKeyLib (List.replicate 32 9) ['a'] ['b'] freshMachine).machine.files ['a'] =
      some ⟨List.replicate 32 9, 0o600⟩ ∧
    ∀ f, (Files.generate toyKeyLib (List.replicate 32 9) ['a'] ['b'] freshMachine).machine.files ['a'] = some f → OwnerOnly f :=
  ⟨C157_new_file toyKeyLib toyKeyLib_good _ List.length_replicate ['a'] ['b'] (by decide) (by decide) freshMachine rfl rfl rfl,
    (C157_private_partial toyKeyLib toyKeyLib_good _ List.length_replicate ['a'] ['b'] (by decide) freshMachine
      (fun f h => by cases h) _ (.inl rfl)).1⟩

/-- A case of `C157_refines`. -/
example : (Algokey.generate toyKeyLib (List.replicate 32 9) ['a'] ['b'] freshMachine.world).lines =
    (Files.generate toyKeyLib (List.replicate 32 9) ['a'] ['b'] freshMachine).lines := by
  rw [(C157_refines toyKeyLib (List.replicate 32 9) ['a'] ['b'] freshMachine (fun n k h => by cases h)).1]

/-- A case of `C158_key_partial`: the write stops after five bytes; the file is then no key. -/
example : (Files.generate toyKeyLib (List.replicate 32 9) ['a'] ['b']
      ⟨fun _ => none, 0o022, fun _ => .after 5⟩).machine.files ['a'] = none ∨
    (Files.generate toyKeyLib (List.replicate 32 9) ['a'] ['b']
      ⟨fun _ => none, 0o022, fun _ => .after 5⟩).machine.world.loadSk ['a'] = some (List.replicate 32 9) ∨
    ((Files.generate toyKeyLib (List.replicate 32 9) ['a'] ['b']
      ⟨fun _ => none, 0o022, fun _ => .after 5⟩).machine.world.loadSk ['a'] = none) := by
  rcases C158_key_partial toyKeyLib toyKeyLib_good (List.replicate 32 9) List.length_replicate ['a'] ['b'] (by decide)
    ⟨fun _ => none, 0o022, fun _ => .after 5⟩ with h | h | h
  · exact .inl h
  · exact .inr (.inl h)
  · exact .inr (.inr h.1)

end Verif.Props
