import Verif.Model.Config
import Verif.Props.KeyFile
import Mathlib.Data.Nat.Bitwise
import Mathlib.Data.List.Nodup
/-!
# Properties of the node configuration (C63, C64, C94-C97)
-/

namespace Verif.Props
open Verif Verif.Config

/-! ## Values of settings -/

/-- A JSON number is an unsigned integer below a bound. -/
def IsJsonUint (bound : Nat) (j : Json) (n : Nat) : Prop := n < bound ∧ j = .num n

/-- The JSON of a duration of `n` nanoseconds: whole seconds and nanoseconds, by name in either order or as an array. -/
def IsDuration (j : Json) (n : Nat) : Prop :=
  ∃ s k js jk, IsJsonUint (2 ^ 64) js s ∧ IsJsonUint (2 ^ 32) jk k ∧ s + k / 10 ^ 9 < 2 ^ 64 ∧ n = s * 10 ^ 9 + k ∧
    (j = .obj [(['s', 'e', 'c', 's'], js), (['n', 'a', 'n', 'o', 's'], jk)] ∨
     j = .obj [(['n', 'a', 'n', 'o', 's'], jk), (['s', 'e', 'c', 's'], js)] ∨ j = .arr [js, jk])

/-- The JSON of a signed integer of `b` bits. -/
def IsJsonInt (b : Nat) (j : Json) (n : Int) : Prop := -(2 ^ (b - 1) : Int) ≤ n ∧ n < 2 ^ (b - 1) ∧ j = .num n

/-- The members of an object as a map from strings to booleans: every value is a boolean, and the map has exactly the
last value of every name. -/
def IsFlagMap (l : List (Str × Json)) (m : List (Str × Bool)) : Prop :=
  (∀ e ∈ l, ∃ b, e.2 = .bool b) ∧ (m.map (·.1)).Nodup ∧
  ∀ k b, (k, b) ∈ m ↔ ∃ l1 l2, l = l1 ++ (k, .bool b) :: l2 ∧ ∀ e ∈ l2, e.1 ≠ k

/-- The JSON of a value of a Rust type. -/
def HasValue : Ty → Json → Val → Prop
  | .u32, j, x => ∃ n, IsJsonUint (2 ^ 32) j n ∧ x = .nat n
  | .u64, j, x => ∃ n, IsJsonUint (2 ^ 64) j n ∧ x = .nat n
  | .i32, j, x => ∃ n, IsJsonInt 32 j n ∧ x = .int n
  | .i64, j, x => ∃ n, IsJsonInt 64 j n ∧ x = .int n
  | .bool, j, x => ∃ b, j = .bool b ∧ x = .bool b
  | .str, j, x => ∃ s, j = .str s ∧ x = .str s
  | .dur, j, x => ∃ n, IsDuration j n ∧ x = .dur (n / 10 ^ 9) (n % 10 ^ 9)
  | .map, j, x => ∃ l m, j = .obj l ∧ x = .map m ∧ IsFlagMap l m

/-- A value of a Rust type. -/
def OfTy : Ty → Val → Prop
  | .u32, x => ∃ n, n < 2 ^ 32 ∧ x = .nat n
  | .u64, x => ∃ n, n < 2 ^ 64 ∧ x = .nat n
  | .i32, x => ∃ n : Int, -2 ^ 31 ≤ n ∧ n < 2 ^ 31 ∧ x = .int n
  | .i64, x => ∃ n : Int, -2 ^ 63 ≤ n ∧ n < 2 ^ 63 ∧ x = .int n
  | .bool, x => ∃ b, x = .bool b
  | .str, x => ∃ s, x = .str s
  | .dur, x => ∃ s n, s < 2 ^ 64 ∧ n < 10 ^ 9 ∧ x = .dur s n
  | .map, x => ∃ m, (m.map (·.1)).Nodup ∧ x = .map m

theorem decNat_iff (b : Nat) (j : Json) (n : Nat) : decNat b j = some n ↔ IsJsonUint b j n := by
  constructor
  · intro h
    cases j with
    | num k =>
      simp only [decNat] at h
      split at h
      · rename_i hk
        injection h with h
        subst h
        exact ⟨hk.2, congrArg Json.num (Int.toNat_of_nonneg hk.1).symm⟩
      · cases h
    | _ => simp [decNat] at h
  · rintro ⟨h, rfl⟩
    simp [decNat, h]

theorem secs_ne_nanos : secsName ≠ nanosName := by decide

theorem durEntries_iff (l : List (Str × Json)) (v : Val) :
    durEntries none none l = some v ↔ ∃ s k js jk, IsJsonUint (2 ^ 64) js s ∧ IsJsonUint (2 ^ 32) jk k ∧
      mkDuration s k = some v ∧ (l = [(secsName, js), (nanosName, jk)] ∨ l = [(nanosName, jk), (secsName, js)]) := by
  have step2 : ∀ (s : Nat) (l : List (Str × Json)), durEntries (some s) none l = some v →
      ∃ k jk, IsJsonUint (2 ^ 32) jk k ∧ mkDuration s k = some v ∧ l = [(nanosName, jk)] := by
    intro s l h
    cases l with
    | nil => simp [durEntries] at h
    | cons e l =>
      obtain ⟨x, j⟩ := e
      simp only [durEntries] at h
      split at h
      · simp at h
      · split at h
        · rename_i hx
          cases hd : decNat u32Lim j with
          | none => rw [hd] at h; simp at h
          | some k =>
            rw [hd] at h
            simp only at h
            cases l with
            | nil =>
              simp only [durEntries] at h
              exact ⟨k, j, (decNat_iff _ _ _).1 hd, h, by rw [hx]⟩
            | cons e l =>
              obtain ⟨x, j⟩ := e
              simp only [durEntries] at h
              split at h
              · simp at h
              · split at h
                · simp at h
                · cases h
        · cases h
  have step3 : ∀ (s : Nat) (l : List (Str × Json)), durEntries none (some s) l = some v →
      ∃ k jk, IsJsonUint (2 ^ 64) jk k ∧ mkDuration k s = some v ∧ l = [(secsName, jk)] := by
    intro s l h
    cases l with
    | nil => simp [durEntries] at h
    | cons e l =>
      obtain ⟨x, j⟩ := e
      simp only [durEntries] at h
      split at h
      · rename_i hx
        cases hd : decNat u64Lim j with
        | none => rw [hd] at h; simp at h
        | some k =>
          rw [hd] at h
          simp only at h
          cases l with
          | nil =>
            simp only [durEntries] at h
            exact ⟨k, j, (decNat_iff _ _ _).1 hd, h, by rw [hx]⟩
          | cons e l =>
            obtain ⟨x, j⟩ := e
            simp only [durEntries] at h
            split at h
            · simp at h
            · split at h
              · simp at h
              · cases h
      · split at h
        · simp at h
        · cases h
  constructor
  · intro h
    cases l with
    | nil => simp [durEntries] at h
    | cons e l =>
      obtain ⟨x, j⟩ := e
      simp only [durEntries] at h
      split at h
      · rename_i hx
        cases hd : decNat u64Lim j with
        | none => rw [hd] at h; simp at h
        | some s =>
          rw [hd] at h
          simp only at h
          obtain ⟨k, jk, h1, h2, h3⟩ := step2 s l h
          exact ⟨s, k, j, jk, (decNat_iff _ _ _).1 hd, h1, h2, Or.inl (by rw [hx, h3])⟩
      · split at h
        · rename_i hx
          cases hd : decNat u32Lim j with
          | none => rw [hd] at h; simp at h
          | some k =>
            rw [hd] at h
            simp only at h
            obtain ⟨s, js, h1, h2, h3⟩ := step3 k l h
            exact ⟨s, k, js, j, h1, (decNat_iff _ _ _).1 hd, h2, Or.inr (by rw [hx, h3])⟩
        · cases h
  · rintro ⟨s, k, js, jk, h1, h2, h3, rfl | rfl⟩
    · have e1 := (decNat_iff u64Lim js s).2 h1
      have e2 := (decNat_iff u32Lim jk k).2 h2
      simp [durEntries, e1, e2, secs_ne_nanos.symm, h3]
    · have e1 := (decNat_iff u64Lim js s).2 h1
      have e2 := (decNat_iff u32Lim jk k).2 h2
      simp [durEntries, e1, e2, secs_ne_nanos.symm, h3]

theorem decInt_iff (b : Nat) (j : Json) (n : Int) : decInt b j = some n ↔ IsJsonInt (b + 1) j n := by
  rw [IsJsonInt, Nat.add_sub_cancel]
  constructor
  · intro h
    cases j with
    | num k =>
      simp only [decInt] at h
      split at h
      · rename_i hk
        injection h with h
        subst h
        push_cast at hk
        exact ⟨hk.1, hk.2, rfl⟩
      · cases h
    | _ => simp [decInt] at h
  · rintro ⟨h1, h2, rfl⟩
    simp only [decInt]
    rw [if_pos (by push_cast; exact ⟨h1, h2⟩)]

theorem mkDuration_value (s k : Nat) (v : Val) (h : mkDuration s k = some v) :
    s + k / 10 ^ 9 < 2 ^ 64 ∧ v = .dur ((s * 10 ^ 9 + k) / 10 ^ 9) ((s * 10 ^ 9 + k) % 10 ^ 9) := by
  rw [mkDuration] at h
  split at h
  · rename_i hlt
    injection h with h
    refine ⟨hlt, ?_⟩
    rw [← h]
    congr 1 <;> omega
  · cases h

theorem mkDuration_some {s k : Nat} (h : s + k / 10 ^ 9 < 2 ^ 64) :
    mkDuration s k = some (.dur ((s * 10 ^ 9 + k) / 10 ^ 9) ((s * 10 ^ 9 + k) % 10 ^ 9)) := by
  have h' : s + k / 1000000000 < u64Lim := h
  rw [mkDuration, if_pos h']
  congr 2 <;> omega

theorem flagMap_snoc {l : List (Str × Json)} {m : List (Str × Bool)} (h : IsFlagMap l m) (k : Str) (b : Bool) :
    IsFlagMap (l ++ [(k, .bool b)]) (mapInsert m k b) := by
  obtain ⟨h1, h2, h3⟩ := h
  refine ⟨?_, ?_, ?_⟩
  · intro e he
    rcases List.mem_append.1 he with he | he
    · exact h1 e he
    · rw [List.mem_singleton.1 he]; exact ⟨b, rfl⟩
  · rw [mapInsert, List.map_append, List.nodup_append]
    refine ⟨(List.filter_sublist.map _).nodup h2, by simp, ?_⟩
    intro x hx y hy
    obtain ⟨e, he, rfl⟩ := List.mem_map.1 hx
    have := (List.mem_filter.1 he).2
    simp only [List.map_cons, List.map_nil, List.mem_singleton] at hy
    rw [hy]
    simpa using this
  · intro k' b'
    rw [mapInsert, List.mem_append, List.mem_filter, h3 k' b', List.mem_singleton]
    constructor
    · rintro (⟨⟨l1, l2, e, hl⟩, hk⟩ | e)
      · have hk : k' ≠ k := by simpa using hk
        refine ⟨l1, l2 ++ [(k, .bool b)], by rw [e]; simp, ?_⟩
        intro x hx
        rcases List.mem_append.1 hx with hx | hx
        · exact hl x hx
        · rw [List.mem_singleton.1 hx]; exact fun e => hk e.symm
      · injection e with e1 e2
        subst e1; subst e2
        exact ⟨l, [], rfl, fun e he => nomatch he⟩
    · rintro ⟨l1, l2, e, hl⟩
      rcases List.eq_nil_or_concat l2 with rfl | ⟨l3, x, rfl⟩
      · have := (List.append_inj' e rfl).2
        injection this with this
        injection this with e1 e2
        injection e2 with e2
        exact .inr (by rw [e1, e2])
      · rw [List.concat_eq_append, ← List.cons_append, ← List.append_assoc] at e
        obtain ⟨e1, e2⟩ := List.append_inj' e rfl
        injection e2 with e2
        refine .inl ⟨⟨l1, l3, e1, fun y hy => hl y (by simp [hy])⟩, ?_⟩
        have := hl x (by simp)
        rw [← e2] at this
        simpa using fun e => this e.symm

theorem mapEntries_sound : ∀ (l pre : List (Str × Json)) (acc m : List (Str × Bool)), IsFlagMap pre acc →
    mapEntries acc l = some m → IsFlagMap (pre ++ l) m
  | [], pre, acc, m, h, e => by
    simp only [mapEntries] at e
    injection e with e
    subst e
    simpa using h
  | (k, j) :: l, pre, acc, m, h, e => by
    cases j with
    | bool b =>
      simp only [mapEntries] at e
      have := mapEntries_sound l _ _ m (flagMap_snoc h k b) e
      simpa using this
    | _ => simp [mapEntries] at e

theorem mapEntries_some : ∀ (l : List (Str × Json)) (acc : List (Str × Bool)), (∀ e ∈ l, ∃ b, e.2 = .bool b) →
    (mapEntries acc l).isSome
  | [], acc, _ => rfl
  | (k, j) :: l, acc, h => by
    obtain ⟨b, hb⟩ := h _ List.mem_cons_self
    simp only at hb
    subst hb
    exact mapEntries_some l _ fun e he => h e (List.mem_cons_of_mem _ he)

theorem flagMap_nil : IsFlagMap [] [] := by
  refine ⟨fun e he => (nomatch he), List.nodup_nil, fun k b => ⟨fun h => (nomatch h), ?_⟩⟩
  rintro ⟨l1, l2, h, _⟩
  simp at h

theorem decVal_sound {ty : Ty} {j : Json} {v : Val} (h : decVal ty j = some v) : HasValue ty j v := by
  cases ty with
  | u32 =>
    obtain ⟨n, h1, h2⟩ := Option.map_eq_some_iff.1 (by simpa only [decVal] using h)
    exact ⟨n, (decNat_iff _ _ _).1 h1, h2.symm⟩
  | u64 =>
    obtain ⟨n, h1, h2⟩ := Option.map_eq_some_iff.1 (by simpa only [decVal] using h)
    exact ⟨n, (decNat_iff _ _ _).1 h1, h2.symm⟩
  | i32 =>
    obtain ⟨n, h1, h2⟩ := Option.map_eq_some_iff.1 (by simpa only [decVal] using h)
    exact ⟨n, (decInt_iff _ _ _).1 h1, h2.symm⟩
  | i64 =>
    obtain ⟨n, h1, h2⟩ := Option.map_eq_some_iff.1 (by simpa only [decVal] using h)
    exact ⟨n, (decInt_iff _ _ _).1 h1, h2.symm⟩
  | bool =>
    cases j with
    | bool b => simp only [decVal] at h; injection h with h; exact ⟨b, rfl, h.symm⟩
    | _ => simp [decVal] at h
  | str =>
    cases j with
    | str b => simp only [decVal] at h; injection h with h; exact ⟨b, rfl, h.symm⟩
    | _ => simp [decVal] at h
  | dur =>
    cases j with
    | obj l =>
      simp only [decVal] at h
      obtain ⟨s, k, js, jk, a, b, c, d⟩ := (durEntries_iff l v).1 h
      obtain ⟨h1, h2⟩ := mkDuration_value s k v c
      refine ⟨_, ⟨s, k, js, jk, a, b, h1, rfl, ?_⟩, h2⟩
      rcases d with rfl | rfl
      · exact Or.inl rfl
      · exact Or.inr (Or.inl rfl)
    | arr l =>
      match l, h with
      | [], h1 => simp [decVal] at h1
      | [_], h1 => simp [decVal] at h1
      | [a, b], h1 =>
        simp only [decVal] at h1
        cases ha : decNat u64Lim a with
        | none => rw [ha] at h1; simp at h1
        | some s =>
          cases hb : decNat u32Lim b with
          | none => rw [ha, hb] at h1; simp at h1
          | some k =>
            rw [ha, hb] at h1
            simp only at h1
            obtain ⟨h2, h3⟩ := mkDuration_value s k v h1
            exact ⟨_, ⟨s, k, a, b, (decNat_iff _ _ _).1 ha, (decNat_iff _ _ _).1 hb, h2, rfl, Or.inr (Or.inr rfl)⟩, h3⟩
      | _ :: _ :: _ :: _, h1 => simp [decVal] at h1
    | _ => simp [decVal] at h
  | map =>
    cases j with
    | obj l =>
      rw [decVal] at h
      obtain ⟨m, h1, h2⟩ := Option.map_eq_some_iff.1 h
      exact ⟨l, m, rfl, h2.symm, by exact mapEntries_sound l [] [] m flagMap_nil h1⟩
    | _ => simp [decVal] at h

theorem decVal_isSome {ty : Ty} {j : Json} {v : Val} (h : HasValue ty j v) : (decVal ty j).isSome := by
  cases ty with
  | u32 => obtain ⟨n, h, _⟩ := h; simp only [decVal, Option.isSome_map, (decNat_iff u32Lim j n).2 h, Option.isSome_some]
  | u64 => obtain ⟨n, h, _⟩ := h; simp only [decVal, Option.isSome_map, (decNat_iff u64Lim j n).2 h, Option.isSome_some]
  | i32 => obtain ⟨n, h, _⟩ := h; simp only [decVal, Option.isSome_map, (decInt_iff 31 j n).2 h, Option.isSome_some]
  | i64 => obtain ⟨n, h, _⟩ := h; simp only [decVal, Option.isSome_map, (decInt_iff 63 j n).2 h, Option.isSome_some]
  | bool => obtain ⟨b, rfl, _⟩ := h; rfl
  | str => obtain ⟨b, rfl, _⟩ := h; rfl
  | dur =>
    obtain ⟨n, ⟨s, k, js, jk, a, b, c, d, e⟩, _⟩ := h
    have hm := mkDuration_some c
    rcases e with rfl | rfl | rfl
    · simp only [decVal]
      have := (durEntries_iff _ _).2 ⟨s, k, js, jk, a, b, hm, Or.inl rfl⟩
      exact Option.isSome_iff_exists.2 ⟨_, this⟩
    · simp only [decVal]
      have := (durEntries_iff _ _).2 ⟨s, k, js, jk, a, b, hm, Or.inr rfl⟩
      exact Option.isSome_iff_exists.2 ⟨_, this⟩
    · simp only [decVal, (decNat_iff u64Lim js s).2 a, (decNat_iff u32Lim jk k).2 b, hm]; rfl
  | map =>
    obtain ⟨l, m, rfl, _, h, _⟩ := h
    simp only [decVal, Option.isSome_map]
    exact mapEntries_some l [] h

/-! ## C63: relays, and the settings of the file -/

theorem field_complete (f : Field) : f ∈ Field.all := by cases f <;> decide

theorem names_nodup : (Field.all.map Field.name).Nodup := by decide +kernel

theorem name_inj {f g : Field} (h : f.name = g.name) : f = g :=
  List.inj_on_of_nodup_map names_nodup (field_complete f) (field_complete g) h

theorem ofName_iff (k : Str) (f : Field) : Field.ofName k = some f ↔ f.name = k := by
  rw [Field.ofName]
  constructor
  · intro h
    have := List.find?_some h
    simpa using this
  · intro h
    cases hf : Field.all.find? (fun f => decide (f.name = k)) with
    | none =>
      rw [List.find?_eq_none] at hf
      exact absurd (decide_eq_true h) (hf f (field_complete f))
    | some g =>
      have := List.find?_some hf
      rw [decide_eq_true_eq] at this
      rw [name_inj (this.trans h.symm)]

/-- The JSON value a file gives for a setting: the only entry with its name, or the value at its place in an array with
one value per setting. -/
def Setting (j : Json) (f : Field) (v : Json) : Prop :=
  (∃ l, j = .obj l ∧ l.filter (fun e => e.1 = f.name) = [(f.name, v)]) ∨
  (∃ l, j = .arr l ∧ l.length = Field.all.length ∧ ∃ i : Nat, Field.all[i]? = some f ∧ l[i]? = some v)

theorem readEntries_spec (l : List (Str × Json)) : ∀ (st st' : Partial), readEntries st l = some st' → ∀ f : Field,
    (l.filter (fun e => e.1 = f.name) = [] ∧ st' f = st f) ∨
    (∃ v w, l.filter (fun e => e.1 = f.name) = [(f.name, v)] ∧ st f = none ∧ decVal f.ty v = some w ∧ st' f = some w) := by
  induction l with
  | nil => intro st st' h f; injection h with h; subst h; exact Or.inl ⟨rfl, rfl⟩
  | cons e l ih =>
    obtain ⟨k, j⟩ := e
    intro st st' h f
    rw [readEntries] at h
    cases hk : Field.ofName k with
    | none =>
      rw [hk] at h
      have hne : ¬ k = f.name := by
        intro e
        rw [(ofName_iff k f).2 e.symm] at hk
        cases hk
      rw [List.filter_cons_of_neg (by simpa using hne)]
      exact ih st st' h f
    | some g =>
      rw [hk] at h
      have hg := (ofName_iff k g).1 hk
      simp only at h
      cases hst : st g with
      | some x => rw [hst] at h; cases h
      | none =>
        rw [hst] at h
        cases hd : decVal g.ty j with
        | none => rw [hd] at h; cases h
        | some w =>
          rw [hd] at h
          simp only at h
          by_cases hfg : f = g
          · subst hfg
            rw [List.filter_cons_of_pos (by simp [hg])]
            rcases ih _ _ h f with ⟨h1, h2⟩ | ⟨v, w', h1, h2, _⟩
            · refine Or.inr ⟨j, w, by rw [h1, hg], hst, hd, ?_⟩
              rw [h2]; simp [Partial.set]
            · simp [Partial.set] at h2
          · have hne : ¬ k = f.name := fun e => hfg (name_inj (hg.trans e)).symm
            rw [List.filter_cons_of_neg (by simpa using hne)]
            have hset : (st.set g w) f = st f := by simp [Partial.set, hfg]
            have := ih _ _ h f
            rw [hset] at this
            exact this

theorem readEntries_ok (l : List (Str × Json)) : ∀ (st : Partial),
    (∀ f : Field, l.filter (fun e => e.1 = f.name) = [] ∨
      ∃ v, l.filter (fun e => e.1 = f.name) = [(f.name, v)] ∧ st f = none ∧ (decVal f.ty v).isSome) →
    ∃ st', readEntries st l = some st' := by
  induction l with
  | nil => intro st _; exact ⟨st, rfl⟩
  | cons e l ih =>
    obtain ⟨k, j⟩ := e
    intro st h
    rw [readEntries]
    cases hk : Field.ofName k with
    | none =>
      refine ih st ?_
      intro f
      have hne : ¬ k = f.name := by
        intro e
        rw [(ofName_iff k f).2 e.symm] at hk
        cases hk
      have := h f
      rw [List.filter_cons_of_neg (by simpa using hne)] at this
      exact this
    | some g =>
      have hg := (ofName_iff k g).1 hk
      have h1 := h g
      rw [List.filter_cons_of_pos (by simp [hg])] at h1
      rcases h1 with h1 | ⟨v, h1, h2, h3⟩
      · cases h1
      · have h4 := List.cons.inj h1
        have h5 : j = v := (Prod.mk.inj h4.1).2
        subst h5
        obtain ⟨w, hw⟩ := Option.isSome_iff_exists.1 h3
        simp only [h2, hw]
        refine ih _ ?_
        intro f
        by_cases hfg : f = g
        · subst hfg; exact Or.inl h4.2
        · have hne : ¬ k = f.name := fun e => hfg (name_inj (hg.trans e)).symm
          have := h f
          rw [List.filter_cons_of_neg (by simpa using hne)] at this
          simpa [Partial.set, hfg] using this

theorem readSeq_spec (fs : List Field) : ∀ (l : List Json) (st st' : Partial), fs.Nodup → readSeq st fs l = some st' →
    l.length = fs.length ∧ (∀ f ∉ fs, st' f = st f) ∧
    ∀ (i : Nat) f, fs[i]? = some f → ∃ v w, l[i]? = some v ∧ decVal f.ty v = some w ∧ st' f = some w := by
  induction fs with
  | nil =>
    intro l st st' _ h
    cases l with
    | nil => injection h with h; subst h; exact ⟨rfl, fun _ _ => rfl, by simp⟩
    | cons j l => cases h
  | cons g fs ih =>
    intro l st st' hn h
    cases l with
    | nil => cases h
    | cons j l =>
      rw [readSeq] at h
      cases hd : decVal g.ty j with
      | none => rw [hd] at h; cases h
      | some w =>
        rw [hd] at h
        rw [List.nodup_cons] at hn
        obtain ⟨h1, h2, h3⟩ := ih l _ _ hn.2 h
        refine ⟨by simp [h1], ?_, ?_⟩
        · intro f hf
          simp only [List.mem_cons, not_or] at hf
          rw [h2 f hf.2]
          simp [Partial.set, hf.1]
        · intro i f hi
          cases i with
          | zero =>
            simp only [List.getElem?_cons_zero, Option.some.injEq] at hi
            subst hi
            exact ⟨j, w, rfl, hd, by rw [h2 _ hn.1]; simp [Partial.set]⟩
          | succ i => exact h3 i f hi

theorem finish_spec {st : Partial} {c : Local} (h : finish st = some c) (f : Field) : st f = some (c f) := by
  rw [finish] at h
  split at h
  · rename_i ha
    injection h with h
    have h1 := List.all_eq_true.1 ha f (field_complete f)
    obtain ⟨w, hw⟩ := Option.isSome_iff_exists.1 h1
    rw [← h]
    simp only [hw, Option.getD_some]
  · cases h

theorem finish_ok {st : Partial} (h : ∀ f, (st f).isSome) : ∃ c, finish st = some c := by
  refine ⟨_, if_pos ?_⟩
  rw [List.all_eq_true]
  exact fun f _ => h f

theorem all_nodup : Field.all.Nodup := List.Nodup.of_map Field.name names_nodup

theorem decodeLocal_spec {j : Json} {c : Local} (h : decodeLocal j = some c) (f : Field) :
    ∃ v, Setting j f v ∧ decVal f.ty v = some (c f) := by
  cases j with
  | obj l =>
    rw [decodeLocal, Option.bind_eq_some_iff] at h
    obtain ⟨st, h1, h2⟩ := h
    have h3 := finish_spec h2 f
    rcases readEntries_spec l _ _ h1 f with ⟨_, h4⟩ | ⟨v, w, h4, _, h5, h6⟩
    · rw [h3] at h4; cases h4
    · rw [h3] at h6
      injection h6 with h6
      exact ⟨v, Or.inl ⟨l, rfl, h4⟩, by rw [h5, h6]⟩
  | arr l =>
    rw [decodeLocal, Option.bind_eq_some_iff] at h
    obtain ⟨st, h1, h2⟩ := h
    have h3 := finish_spec h2 f
    obtain ⟨a1, _, a3⟩ := readSeq_spec _ l _ _ all_nodup h1
    obtain ⟨i, hi⟩ := List.getElem?_of_mem (field_complete f)
    obtain ⟨v, w, b1, b2, b3⟩ := a3 i f hi
    rw [h3] at b3
    injection b3 with b3
    exact ⟨v, Or.inr ⟨l, rfl, a1, i, hi, b1⟩, by rw [b2, b3]⟩
  | null => cases h
  | bool b => cases h
  | num n => cases h
  | float => cases h
  | str s => cases h

/-- The settings a listening node overrides. -/
def RelayField (f : Field) : Prop := f = .archival ∨ f = .enableLedgerService ∨ f = .enableBlockService

theorem load_values (J : JsonLib) (fs : Fs) (path : Str) (c : Local) (h : loadFromFile J fs path = .ok c) :
    ∃ content j, fs path = some content ∧ J.parse content = some j ∧
      (c .netAddress ≠ .str [] → c .archival = .bool true ∧ c .enableLedgerService = .bool true ∧
        c .enableBlockService = .bool true) ∧
      ∀ f : Field, (c .netAddress ≠ .str [] → ¬ RelayField f) → ∃ v, Setting j f v ∧ decVal f.ty v = some (c f) := by
  rw [loadFromFile, mergeFromFile] at h
  cases hc : fs path with
  | none => rw [hc] at h; cases h
  | some content =>
    rw [hc] at h
    simp only [load] at h
    cases hj : J.parse content with
    | none => rw [hj] at h; cases h
    | some j =>
      rw [hj, Option.bind_some] at h
      cases hd : decodeLocal j with
      | none => rw [hd] at h; cases h
      | some c0 =>
        rw [hd] at h
        simp only at h
        refine ⟨content, j, rfl, hj, ?_⟩
        by_cases hl : c0 .netAddress = .str []
        · rw [if_neg (by simp [Local.listens, hl])] at h
          injection h with h
          subst h
          exact ⟨fun hn => absurd hl hn, fun f _ => decodeLocal_spec hd f⟩
        · rw [if_pos (by simp [Local.listens, hl])] at h
          injection h with h
          have hnet : c .netAddress = c0 .netAddress := by rw [← h]; rfl
          refine ⟨fun _ => by rw [← h]; exact ⟨rfl, rfl, rfl⟩, ?_⟩
          intro f hf
          have hf := hf (by rw [hnet]; exact hl)
          simp only [RelayField, not_or] at hf
          obtain ⟨v, h1, h2⟩ := decodeLocal_spec hd f
          refine ⟨v, h1, ?_⟩
          rw [h2, ← h]
          simp [Local.set, hf]

/-- C63: a loaded configuration with a listen address is archival and serves ledger and blocks; every other setting,
and every setting of a node that does not listen, is the one in the file. -/
theorem C63_relay (J : JsonLib) (fs : Fs) (path : Str) (c : Local) (h : loadFromFile J fs path = .ok c) :
    ∃ content j, fs path = some content ∧ J.parse content = some j ∧
      (c .netAddress ≠ .str [] → c .archival = .bool true ∧ c .enableLedgerService = .bool true ∧
        c .enableBlockService = .bool true) ∧
      ∀ f : Field, (c .netAddress ≠ .str [] → ¬ RelayField f) → ∃ v, Setting j f v ∧ HasValue f.ty v (c f) := by
  obtain ⟨content, j, h1, h2, h3, h4⟩ := load_values J fs path c h
  refine ⟨content, j, h1, h2, h3, fun f hf => ?_⟩
  obtain ⟨v, h5, h6⟩ := h4 f hf
  exact ⟨v, h5, decVal_sound h6⟩

/-- C63: a file is loaded exactly if it is an object with a valid value for every setting, none twice (or the array
form); what it replaces does not matter. -/
theorem C63_loads (J : JsonLib) (fs : Fs) (path content : Str) (l : List (Str × Json)) (hc : fs path = some content)
    (hj : J.parse content = some (.obj l)) :
    ((∃ c, loadFromFile J fs path = .ok c) ↔ ∀ f : Field, ∃ v x, Setting (.obj l) f v ∧ HasValue f.ty v x) ∧
    ∀ old old', mergeFromFile J fs path old = mergeFromFile J fs path old' := by
  refine ⟨⟨?_, ?_⟩, fun _ _ => rfl⟩
  · rintro ⟨c, h⟩ f
    rw [loadFromFile, mergeFromFile, hc] at h
    simp only [load, hj, Option.bind_some] at h
    cases hd : decodeLocal (.obj l) with
    | none => rw [hd] at h; cases h
    | some c0 =>
      obtain ⟨v, h1, h2⟩ := decodeLocal_spec hd f
      exact ⟨v, _, h1, decVal_sound h2⟩
  · intro h
    have hobj : ∀ f : Field, ∃ v, l.filter (fun e => e.1 = f.name) = [(f.name, v)] ∧ (decVal f.ty v).isSome := by
      intro f
      obtain ⟨v, x, hs, hv⟩ := h f
      rcases hs with ⟨l', e, h2⟩ | ⟨l', e, _⟩
      · injection e with e; subst e; exact ⟨v, h2, decVal_isSome hv⟩
      · cases e
    obtain ⟨st, hst⟩ := readEntries_ok l (fun _ => none) (fun f => by
      obtain ⟨v, h1, h2⟩ := hobj f
      exact Or.inr ⟨v, h1, rfl, h2⟩)
    obtain ⟨c, hfin⟩ := finish_ok (st := st) (fun f => by
      obtain ⟨v, h1, _⟩ := hobj f
      rcases readEntries_spec l _ _ hst f with ⟨h2, _⟩ | ⟨_, w, _, _, _, h3⟩
      · rw [h1] at h2; cases h2
      · rw [h3]; rfl)
    have hd : decodeLocal (.obj l) = some c := by rw [decodeLocal, hst, Option.bind_some, hfin]
    rw [loadFromFile, mergeFromFile, hc]
    simp only [load, hj, Option.bind_some, hd]
    split
    · exact ⟨_, rfl⟩
    · exact ⟨_, rfl⟩

/-- The JSON of a setting, for writing complete files. -/
def valJson : Val → Json
  | .nat n => .num n
  | .int n => .num n
  | .bool b => .bool b
  | .str s => .str s
  | .dur s n => .obj [(secsName, .num s), (nanosName, .num n)]
  | .map l => .obj (l.map fun e => (e.1, .bool e.2))

theorem mapEntries_nodup : ∀ (l acc : List (Str × Bool)), ((acc ++ l).map (·.1)).Nodup →
    mapEntries acc (l.map fun e => (e.1, .bool e.2)) = some (acc ++ l)
  | [], acc, _ => by simp [mapEntries]
  | (k, b) :: l, acc, h => by
    have hk : acc.filter (fun e => e.1 ≠ k) = acc := by
      rw [List.filter_eq_self]
      intro e he
      rw [List.map_append, List.nodup_append] at h
      simpa using h.2.2 e.1 (List.mem_map_of_mem he) k (by simp)
    rw [List.map_cons, mapEntries, mapInsert, hk, mapEntries_nodup l _ (by simpa using h)]
    simp

theorem decVal_valJson {ty : Ty} {v : Val} (h : OfTy ty v) : decVal ty (valJson v) = some v := by
  cases ty with
  | u32 => obtain ⟨n, h, rfl⟩ := h; simp only [valJson, decVal, (decNat_iff u32Lim _ n).2 ⟨h, rfl⟩, Option.map_some]
  | u64 => obtain ⟨n, h, rfl⟩ := h; simp only [valJson, decVal, (decNat_iff u64Lim _ n).2 ⟨h, rfl⟩, Option.map_some]
  | i32 => obtain ⟨n, h1, h2, rfl⟩ := h; simp only [valJson, decVal, (decInt_iff 31 _ n).2 ⟨h1, h2, rfl⟩, Option.map_some]
  | i64 => obtain ⟨n, h1, h2, rfl⟩ := h; simp only [valJson, decVal, (decInt_iff 63 _ n).2 ⟨h1, h2, rfl⟩, Option.map_some]
  | bool => obtain ⟨b, rfl⟩ := h; rfl
  | str => obtain ⟨b, rfl⟩ := h; rfl
  | dur =>
    obtain ⟨s, n, h1, h2, rfl⟩ := h
    have hm : mkDuration s n = some (.dur s n) := by
      rw [mkDuration_some (by omega)]
      congr 2 <;> omega
    exact (durEntries_iff _ _).2 ⟨s, n, _, _, ⟨h1, rfl⟩, ⟨by omega, rfl⟩, hm, Or.inl rfl⟩
  | map =>
    obtain ⟨m, h, rfl⟩ := h
    simp only [valJson, decVal, mapEntries_nodup m [] (by simpa using h), Option.map_some, List.nil_append]

/-- A file with every setting. -/
def fileOf (c : Local) : List (Str × Json) := Field.all.map fun f => (f.name, valJson (c f))

theorem filter_fileOf (c : Local) (f : Field) : (fileOf c).filter (fun e => e.1 = f.name) = [(f.name, valJson (c f))] := by
  have key : ∀ l : List Field, l.Nodup → f ∈ l →
      (l.map fun f => (f.name, valJson (c f))).filter (fun e => e.1 = f.name) = [(f.name, valJson (c f))] := by
    intro l hn hf
    induction l with
    | nil => cases hf
    | cons g l ih =>
      rw [List.nodup_cons] at hn
      by_cases hg : g = f
      · subst hg
        rw [List.map_cons, List.filter_cons_of_pos (by simp)]
        congr 1
        rw [List.filter_eq_nil_iff]
        intro e he
        obtain ⟨x, hx, rfl⟩ := List.mem_map.1 he
        simp only [decide_eq_true_eq]
        intro hxn
        rw [name_inj hxn] at hx
        exact hn.1 hx
      · rw [List.map_cons, List.filter_cons_of_neg (by simpa using fun e => hg (name_inj e))]
        refine ih hn.2 ?_
        rcases List.mem_cons.1 hf with hf | hf
        · exact absurd hf.symm hg
        · exact hf
  exact key _ all_nodup (field_complete f)

theorem default_decodes (f : Field) : decVal f.ty (valJson (Local.default f)) = some (Local.default f) := by
  cases f <;> decide +kernel

/-- Example settings: the defaults with a listen address. -/
def relaySettings : Local := Local.default.set .netAddress (.str [':', '1'])

/-- Example JSON library that knows one file. -/
def oneFile : JsonLib := ⟨fun s => if s = [] then some (.obj (fileOf relaySettings)) else none, fun _ => []⟩

-- loading the defaults with a listen address makes an archival node; the other defaults are unchanged
example : ∃ c, loadFromFile oneFile (fun _ => some []) [] = .ok c ∧ Local.default .archival = .bool false ∧
    c .archival = .bool true ∧ c .txPoolSize = .int 15000 := by
  have hset : ∀ f, decVal f.ty (valJson (relaySettings f)) = some (relaySettings f) := by
    intro f
    by_cases h : f = .netAddress
    · subst h; rfl
    · have : relaySettings f = Local.default f := by simp [relaySettings, Local.set, h]
      rw [this]; exact default_decodes f
  obtain ⟨c, hc⟩ := (C63_loads oneFile (fun _ => some []) [] [] (fileOf relaySettings) rfl rfl).1.2
    (fun f => ⟨valJson (relaySettings f), relaySettings f, Or.inl ⟨_, rfl, filter_fileOf _ f⟩, decVal_sound (hset f)⟩)
  obtain ⟨content, j, h1, h2, h3, h4⟩ := load_values _ _ _ _ hc
  have hj : j = .obj (fileOf relaySettings) := by
    injection h1 with h1
    subst h1
    have : oneFile.parse [] = some (.obj (fileOf relaySettings)) := rfl
    rw [this] at h2
    injection h2 with h2
    exact h2.symm
  have hval : ∀ f, (c .netAddress ≠ .str [] → ¬ RelayField f) → c f = relaySettings f := by
    intro f hf
    obtain ⟨v, hs, hv⟩ := h4 f hf
    rcases hs with ⟨l, e, hl⟩ | ⟨l, e, _⟩
    · rw [hj] at e
      injection e with e
      subst e
      rw [filter_fileOf] at hl
      have := (Prod.mk.inj (List.cons.inj hl).1).2
      subst this
      rw [hset f] at hv
      injection hv with hv
      exact hv.symm
    · rw [hj] at e; cases e
  have hn : c .netAddress ≠ .str [] := by
    rw [hval .netAddress (fun _ => by simp [RelayField])]
    decide
  refine ⟨c, hc, rfl, (h3 hn).1, ?_⟩
  rw [hval .txPoolSize (fun _ => by simp [RelayField])]
  rfl

/-! ## C94: settings missing in the file -/

/-- C94 fails: leaving out any one setting makes loading fail, whatever the other settings. -/
theorem C94_violated (J : JsonLib) (fs : Fs) (path content : Str) (l : List (Str × Json)) (hc : fs path = some content)
    (hj : J.parse content = some (.obj l)) (f : Field) (hf : ∀ e ∈ l, e.1 ≠ f.name) :
    loadFromFile J fs path = .error .io := by
  have hno : ¬ ∃ c, loadFromFile J fs path = .ok c := by
    rw [(C63_loads J fs path content l hc hj).1]
    intro h
    obtain ⟨v, _, hs, _⟩ := h f
    rcases hs with ⟨l', e, h2⟩ | ⟨l', e, _⟩
    · injection e with e
      subst e
      have : (f.name, v) ∈ l.filter (fun e => e.1 = f.name) := by rw [h2]; exact List.mem_singleton.2 rfl
      exact hf _ (List.mem_filter.1 this).1 rfl
    · cases e
  rw [loadFromFile, mergeFromFile, hc] at hno ⊢
  simp only [load] at hno ⊢
  cases hd : (J.parse content).bind decodeLocal with
  | none => rfl
  | some c0 =>
    rw [hd] at hno
    exact absurd (by simp only; split <;> exact ⟨_, rfl⟩) hno

-- the empty configuration `{}` is refused
example : loadFromFile ⟨fun _ => some (.obj []), fun _ => []⟩ (fun _ => some []) [] = .error .io :=
  C94_violated _ _ _ [] [] rfl rfl .version (by simp)

/-- C94, the part that holds: a file with every setting sets every setting. Missing: files that leave settings out. -/
theorem C94_full_file_partial (J : JsonLib) (fs : Fs) (path content : Str) (hc : fs path = some content) (d : Local)
    (hty : ∀ f : Field, OfTy f.ty (d f)) (hj : J.parse content = some (.obj (fileOf d))) :
    ∃ c, loadFromFile J fs path = .ok c ∧ ∀ f : Field, (d .netAddress ≠ .str [] → ¬ RelayField f) → c f = d f := by
  have hd : ∀ f : Field, decVal f.ty (valJson (d f)) = some (d f) := fun f => decVal_valJson (hty f)
  have hval : ∀ (c : Local) (f : Field), (∃ v, Setting (.obj (fileOf d)) f v ∧ decVal f.ty v = some (c f)) → c f = d f := by
    rintro c f ⟨v, hs, hv⟩
    rcases hs with ⟨l, e, hl⟩ | ⟨l, e, _⟩
    · injection e with e
      subst e
      rw [filter_fileOf] at hl
      have := (Prod.mk.inj (List.cons.inj hl).1).2
      subst this
      rw [hd f] at hv
      injection hv with hv
      exact hv.symm
    · cases e
  obtain ⟨c, h⟩ := (C63_loads J fs path content _ hc hj).1.2
    (fun f => ⟨valJson (d f), d f, Or.inl ⟨_, rfl, filter_fileOf d f⟩, decVal_sound (hd f)⟩)
  refine ⟨c, h, ?_⟩
  obtain ⟨content', j, h1, h2, _, h4⟩ := load_values _ _ _ _ h
  rw [hc] at h1
  injection h1 with h1
  subst h1
  rw [hj] at h2
  injection h2 with h2
  subst h2
  have hnet := hval c .netAddress (h4 .netAddress (fun _ => by simp [RelayField]))
  intro f hf
  exact hval c f (h4 f (fun hn => hf (by rw [← hnet]; exact hn)))

example (f : Field) : OfTy f.ty (Local.default f) := by
  have := default_decodes f
  cases f <;> simp [Field.ty, Local.default, OfTy]

/-! ## C96: saving -/

/-- C96 fails: saving reports success and changes nothing, so that loading gives what was there before. -/
theorem C96_violated (J : JsonLib) (fs : Fs) (path : Str) (c : Local) :
    ∃ fs', saveToFile fs path c = .ok fs' ∧ loadFromFile J fs' path = loadFromFile J fs path ∧
      (fs path = none → loadFromFile J fs' path = .error .io) := by
  refine ⟨fs, rfl, rfl, ?_⟩
  intro h
  rw [loadFromFile, mergeFromFile, h]

example : ∃ fs', saveToFile (fun _ => none) ['c'] Local.default = .ok fs' ∧
    loadFromFile oneFile fs' ['c'] = .error .io := by
  obtain ⟨fs', h1, _, h3⟩ := C96_violated oneFile (fun _ => none) ['c'] Local.default
  exact ⟨fs', h1, h3 rfl⟩

/-- C96, the part that holds: saving changes no file, so settings that were read from a file and saved back unchanged
are loaded back. Missing: any other settings. -/
theorem C96_unchanged_partial (J : JsonLib) (fs fs' : Fs) (path : Str) (c : Local) (hl : loadFromFile J fs path = .ok c)
    (hs : saveToFile fs path c = .ok fs') : loadFromFile J fs' path = .ok c ∧ ∀ p, fs' p = fs p := by
  rw [saveToFile] at hs
  injection hs with hs
  subst hs
  exact ⟨hl, fun _ => rfl⟩

/-! ## C95: the phonebook -/

/-- C95 fails: a saved phonebook cannot be loaded, whatever its entries. -/
theorem C95_violated (J : JsonLib) (fs : Fs) (path : Str) (entries : List Str)
    (hJ : J.parse (J.print (phonebookJson entries)) = some (phonebookJson entries)) :
    loadPhonebook J (savePhonebook J fs path entries) path = .error .io := by
  simp only [loadPhonebook, savePhonebook, if_true, hJ]
  rfl

/-- C95, what does hold: saving writes an object whose only member `include` lists the entries in order, and touches no
other file. Missing: loading. -/
theorem C95_saved_partial (J : JsonLib) (fs : Fs) (path : Str) (entries : List Str) :
    savePhonebook J fs path entries path =
      some (J.print (.obj [(['i', 'n', 'c', 'l', 'u', 'd', 'e'], .arr (entries.map .str))])) ∧
    ∀ p, p ≠ path → savePhonebook J fs path entries p = fs p :=
  ⟨if_pos rfl, fun _ h => if_neg h⟩

/-- C95 fails: whatever the file contains, no entry is ever returned. -/
theorem C95_never_entries (J : JsonLib) (fs : Fs) (path : Str) (entries : List Str)
    (h : loadPhonebook J fs path = .ok entries) : entries = [] := by
  rw [loadPhonebook] at h
  split at h
  · cases h
  · split at h
    · injection h with h; exact h.symm
    · cases h

example : loadPhonebook ⟨fun _ => some (phonebookJson [['x']]), fun _ => []⟩
    (savePhonebook ⟨fun _ => some (phonebookJson [['x']]), fun _ => []⟩ (fun _ => none) ['p'] [['x']]) ['p'] = .error .io :=
  C95_violated _ _ _ _ rfl

/-! ## C64: bootstrap addresses -/

/-- Joining parts with a separator. -/
def joined (c : Char) : List Str → Str
  | [] => []
  | [p] => p
  | p :: q :: ps => p ++ c :: joined c (q :: ps)

theorem joined_cons (c : Char) (x : Char) (p : Str) (ps : List Str) : joined c ((x :: p) :: ps) = x :: joined c (p :: ps) := by
  cases ps <;> rfl

theorem splitOn_spec (c : Char) (s : Str) : joined c (splitOn c s) = s ∧ ∀ p ∈ splitOn c s, c ∉ p := by
  induction s with
  | nil => exact ⟨rfl, by simp [splitOn]⟩
  | cons x s ih =>
    rw [splitOn]
    split
    · rename_i hx
      subst hx
      constructor
      · cases hs : splitOn x s with
        | nil => exact absurd hs (splitOn_ne_nil x s)
        | cons p ps =>
          rw [hs] at ih
          show x :: joined x (p :: ps) = x :: s
          rw [ih.1]
      · intro p hp
        rcases List.mem_cons.1 hp with rfl | hp
        · simp
        · exact ih.2 p hp
    · rename_i hx
      cases hs : splitOn c s with
      | nil => exact absurd hs (splitOn_ne_nil c s)
      | cons p ps =>
        rw [hs] at ih
        simp only
        refine ⟨by rw [joined_cons, ih.1], ?_⟩
        intro q hq
        rcases List.mem_cons.1 hq with rfl | hq
        · simp only [List.mem_cons, not_or]
          exact ⟨fun e => hx e.symm, ih.2 p List.mem_cons_self⟩
        · exact ih.2 q (List.mem_cons_of_mem _ hq)

/-- C64: the bootstrap list has no empty entry and no entry with a separator; the entries are, in order, the non-empty
parts of the bootstrap string, which is the parts joined by `;`. -/
theorem C64_no_empty (bootstrapId network : Str) :
    (∀ e ∈ dnsBootstrapArray bootstrapId network, e ≠ [] ∧ ';' ∉ e) ∧
    ∃ parts, joined ';' parts = dnsBootstrap bootstrapId network ∧ (∀ p ∈ parts, ';' ∉ p) ∧
      dnsBootstrapArray bootstrapId network = parts.filter (fun p => p ≠ []) := by
  obtain ⟨h1, h2⟩ := splitOn_spec ';' (dnsBootstrap bootstrapId network)
  refine ⟨?_, _, h1, h2, rfl⟩
  intro e he
  rw [dnsBootstrapArray, List.mem_filter] at he
  exact ⟨by simpa using he.2, h2 e he.1⟩

/-- Parts joined by a string. -/
def joinedBy (sep : Str) : List Str → Str
  | [] => []
  | [p] => p
  | p :: q :: ps => p ++ sep ++ joinedBy sep (q :: ps)

theorem joinedBy_cons (sep : Str) (x : Char) (p : Str) (ps : List Str) :
    joinedBy sep ((x :: p) :: ps) = x :: joinedBy sep (p :: ps) := by cases ps <;> rfl

theorem joinedBy_prefix (sep p : Str) (ps : List Str) : p <+: joinedBy sep (p :: ps) := by
  cases ps with
  | nil => exact List.prefix_refl _
  | cons q ps => exact ⟨sep ++ joinedBy sep (q :: ps), by simp [joinedBy]⟩

theorem replace_spec (network : Str) (s : Str) : ∃ p ps, joinedBy placeholder (p :: ps) = s ∧
    joinedBy network (p :: ps) = replaceNetwork network s ∧ ∀ q ∈ p :: ps, ¬ placeholder <:+: q := by
  induction hn : s.length using Nat.strong_induction_on generalizing s with
  | _ n ih =>
    have hempty : ¬ placeholder <:+: ([] : Str) := by
      intro h
      have := List.eq_nil_of_infix_nil h
      exact absurd this (by decide)
    cases s with
    | nil =>
      refine ⟨[], [], rfl, by rw [replaceNetwork]; rfl, ?_⟩
      intro q hq
      rw [List.mem_singleton] at hq
      subst hq
      exact hempty
    | cons c t =>
      rw [replaceNetwork]
      by_cases hp : placeholder <+: c :: t
      · rw [if_pos hp]
        obtain ⟨rest, hr⟩ := hp
        have hdrop : (c :: t).drop placeholder.length = rest := by rw [← hr]; simp
        have hlen := congrArg List.length hr
        rw [List.length_append, hn] at hlen
        obtain ⟨p, ps, h1, h2, h3⟩ := ih rest.length (by
          have : placeholder.length = 9 := rfl
          omega) rest rfl
        refine ⟨[], p :: ps, ?_, ?_, ?_⟩
        · rw [← hr, ← h1]; rfl
        · rw [hdrop, ← h2]; rfl
        · intro q hq
          rcases List.mem_cons.1 hq with rfl | hq
          · exact hempty
          · exact h3 q hq
      · rw [if_neg hp]
        obtain ⟨p, ps, h1, h2, h3⟩ := ih t.length (by rw [← hn]; simp) t rfl
        refine ⟨c :: p, ps, by rw [joinedBy_cons, h1], by rw [joinedBy_cons, h2], ?_⟩
        intro q hq
        rcases List.mem_cons.1 hq with rfl | hq
        · intro hi
          rcases List.infix_cons_iff.1 hi with h | h
          · apply hp
            refine h.trans ?_
            rw [← h1]
            obtain ⟨r, hr⟩ := joinedBy_prefix placeholder p ps
            exact ⟨r, by rw [← hr]; rfl⟩
          · exact h3 p List.mem_cons_self h
        · exact h3 q (List.mem_cons_of_mem _ hq)

/-- C64: unless the identifier is the default one on the two development networks, the bootstrap string is the identifier
with the network put in every place marked `<network>`, and nowhere else. -/
theorem C64_network_inserted (bootstrapId network : Str) :
    (bootstrapId = defaultBootstrapId → network = devnet → dnsBootstrap bootstrapId network = devnet ++ algodev) ∧
    (bootstrapId = defaultBootstrapId → network = betanet → dnsBootstrap bootstrapId network = betanet ++ algodev) ∧
    (bootstrapId ≠ defaultBootstrapId ∨ (network ≠ devnet ∧ network ≠ betanet) →
      ∃ p ps, joinedBy placeholder (p :: ps) = bootstrapId ∧ joinedBy network (p :: ps) = dnsBootstrap bootstrapId network ∧
        ∀ q ∈ p :: ps, ¬ placeholder <:+: q) := by
  refine ⟨?_, ?_, ?_⟩
  · rintro rfl rfl; rfl
  · rintro rfl rfl; rfl
  · intro h
    obtain ⟨p, ps, h1, h2, h3⟩ := replace_spec network bootstrapId
    refine ⟨p, ps, h1, ?_, h3⟩
    rw [dnsBootstrap, if_neg, if_neg]
    · exact h2
    · rintro ⟨a, b⟩
      rcases h with h | h
      · exact h a
      · exact h.2 b
    · rintro ⟨a, b⟩
      rcases h with h | h
      · exact h a
      · exact h.1 b

-- the default identifier, and the model's constant for it
example : Local.default .dnsBootstrapId = .str defaultBootstrapId := rfl

-- `a;;<network>;` on the network `t` gives `a` and `t`
example : dnsBootstrapArray (['a', ';', ';'] ++ placeholder ++ [';']) ['t'] = [['a'], ['t']] := by
  have : dnsBootstrap (['a', ';', ';'] ++ placeholder ++ [';']) ['t'] = ['a', ';', ';', 't', ';'] := by
    rw [dnsBootstrap, if_neg (by decide), if_neg (by decide)]
    simp [placeholder, replaceNetwork]
  rw [dnsBootstrapArray, this]
  decide

example : dnsBootstrapArray defaultBootstrapId devnet = [devnet ++ algodev] := by
  rw [dnsBootstrapArray, (C64_network_inserted _ _).1 rfl rfl]
  decide

/-! ## C97: flags -/

theorem and_pow_two (m i : Nat) : (m &&& 2 ^ i ≠ 0) ↔ m.testBit i = true := by
  rw [Nat.and_two_pow]
  cases m.testBit i <;> simp

/-- C97: every flag is the documented bit: three DNSSEC checks are on when bits 0, 1, 2 are set; the certificate and
payset hash checks are on when bits 0, 1 are clear; the two additional checks are on when bits 2, 3 are set. -/
theorem C97_flags (m : Nat) :
    dnssecSrvEnforced m = m.testBit 0 ∧ dnssecRelayAddrEnforced m = m.testBit 1 ∧
    dnssecTelemetryEnforced m = m.testBit 2 ∧
    catchupVerifyCertificate m = !m.testBit 0 ∧ catchupVerifyPaysetHash m = !m.testBit 1 ∧
    catchupVerifyTransactionSignatures m = m.testBit 2 ∧ catchupVerifyApplyData m = m.testBit 3 := by
  have h0 := and_pow_two m 0
  have h1 := and_pow_two m 1
  have h2 := and_pow_two m 2
  have h3 := and_pow_two m 3
  simp only [Nat.pow_zero, Nat.pow_one, Nat.reducePow] at h0 h1 h2 h3
  have pos : ∀ {p : Prop} [Decidable p] {b : Bool}, (p ↔ b = true) → decide p = b := by
    intro p _ b h
    cases b
    · simpa using h
    · simpa using h
  have neg : ∀ {n : Nat} {b : Bool}, (n ≠ 0 ↔ b = true) → decide (n = 0) = !b := by
    intro n b h
    cases b
    · simpa using h
    · simpa using h
  exact ⟨pos h0, pos h1, pos h2, neg h0, neg h1, pos h2, pos h3⟩

/-- C97: the three documented modes: 0 is the normal one, 3 skips the two checks, 12 adds the two others. -/
theorem C97_modes : (∀ f ∈ [catchupVerifyCertificate, catchupVerifyPaysetHash], f 0 = true ∧ f 3 = false ∧ f 12 = true) ∧
    (∀ f ∈ [catchupVerifyTransactionSignatures, catchupVerifyApplyData], f 0 = false ∧ f 3 = false ∧ f 12 = true) := by
  decide

example : dnssecRelayAddrEnforced 6 = true ∧ dnssecSrvEnforced 6 = false ∧ catchupVerifyCertificate 6 = true := by decide

/-- The words of a text. -/
def wordsOf (s : Str) : List Str :=
  s.foldr (fun c ws => if c = ' ' then [] :: ws else match ws with | w :: r => (c :: w) :: r | [] => [[c]]) [[]]

/-- The settings of `struct Local`, as documented in the source (mod.rs lines 73 and following). -/
def settingNames : List Str :=
  ["version archival gossip_fanout net_address reconnect_time public_address max_connections_per_ip",
   "peer_ping_period_seconds tls_cert_file tls_key_file base_logger_debug_level cadaver_size_target",
   "incoming_connections_limit broadcast_connections_limit announce_participation_key priority_peers",
   "reserved_fds endpoint_address rest_read_timeout_seconds rest_write_timeout_seconds dns_bootstrap_id",
   "log_size_limit log_archive_name log_archive_max_age catchup_failure_peer_refresh_rate",
   "node_exporter_listen_address enable_metric_reporting enable_top_accounts_reporting",
   "enable_agreement_reporting enable_agreement_time_metrics node_exporter_path",
   "fallback_dns_resolver_address tx_pool_exponential_increase_factor suggested_fee_block_history",
   "tx_pool_size tx_sync_timeout_seconds tx_sync_interval_seconds incoming_message_filter_bucket_count",
   "incoming_message_filter_bucket_size outgoing_message_filter_bucket_count",
   "outgoing_message_filter_bucket_size enable_outgoing_network_message_filtering",
   "enable_incoming_message_filter deadlock_detection run_hosted catchup_parallel_blocks",
   "enable_assemble_stats enable_process_block_stats suggested_fee_sliding_window_size",
   "tx_sync_serve_response_size is_indexer_active use_xforwarded_for_address_field force_relay_messages",
   "connections_rate_limiting_window_seconds connections_rate_limiting_count enable_request_logger",
   "peer_connections_update_interval enable_profiler telemetry_to_log dns_security_flags",
   "enable_ping_handler disable_outgoing_connection_throttling network_protocol_version catchpoint_interval",
   "catchpoint_file_history_length enable_ledger_service enable_block_service enable_gossip_block_service",
   "catchup_http_block_fetch_timeout_sec catchup_gossip_block_fetch_timeout_sec",
   "catchup_ledger_download_retry_attempts catchup_block_download_retry_attempts enable_developer_api",
   "optimize_accounts_database_on_startup catchpoint_tracking ledger_synchronous_mode",
   "accounts_rebuild_synchronous_mode max_catchpoint_download_duration",
   "min_catchpoint_file_download_bytes_per_second network_message_trace_server",
   "verified_transcations_cache_size enable_catchup_from_archive_servers",
   "disable_localhost_connection_rate_limit block_service_custom_fallback_endpoints",
   "enable_block_service_fallback_to_archiver catchup_block_validate_mode enable_account_updates_stats",
   "account_updates_stats_interval participation_keys_refresh_interval disable_networking"].flatMap fun l => wordsOf l.toList

/-- The names of the settings in the file are those of the source, in its order. -/
theorem C63_field_names : Field.all.map Field.name = settingNames := by decide +kernel

/-- A case of `C96_unchanged_partial` and `C63_relay`: settings that were loaded, saved where they came from. -/
example : ∃ c, loadFromFile oneFile (fun _ => some []) [] = .ok c ∧
    (∀ fs', saveToFile (fun _ => some []) [] c = .ok fs' → loadFromFile oneFile fs' [] = .ok c) ∧
    (c .netAddress ≠ .str [] → c .archival = .bool true) := by
  have hset : ∀ f, decVal f.ty (valJson (relaySettings f)) = some (relaySettings f) := by
    intro f
    by_cases h : f = .netAddress
    · subst h; rfl
    · have : relaySettings f = Local.default f := by simp [relaySettings, Local.set, h]
      rw [this]; exact default_decodes f
  obtain ⟨c, hc⟩ := (C63_loads oneFile (fun _ => some []) [] [] (fileOf relaySettings) rfl rfl).1.2
    (fun f => ⟨valJson (relaySettings f), relaySettings f, Or.inl ⟨_, rfl, filter_fileOf _ f⟩, decVal_sound (hset f)⟩)
  obtain ⟨_, _, _, _, h, _⟩ := C63_relay oneFile (fun _ => some []) [] c hc
  exact ⟨c, hc, fun fs' hs => (C96_unchanged_partial oneFile _ fs' [] c hc hs).1, fun hn => (h hn).1⟩

/-- The save of that case happens. -/
example (c : Local) : ∃ fs', saveToFile (fun _ => some []) [] c = .ok fs' := ⟨_, rfl⟩

end Verif.Props
