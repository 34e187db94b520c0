import Verif.Model.ConsensusFile
import Verif.Props.Config
import Verif.Props.Consensus
/-!
# C143, C144: the file of consensus overrides
-/

namespace Verif.Props
open Verif Verif.Config Verif.Consensus

/-! ## Specification -/

/-- The members of an object as a map whose keys are versions: every member is named after a version and has a readable
value, and the map has the last value of each version that is named. -/
def IsVMap {V : Type} (P : Json → V → Prop) (l : List (Str × Json)) (m : List (Version × V)) : Prop :=
  (∀ e ∈ l, ∃ v x, e.1 = Version.ident v ∧ P e.2 x) ∧ (m.map (·.1)).Nodup ∧
  ∀ v x, (v, x) ∈ m → ∃ l1 j l2, l = l1 ++ (v.ident, j) :: l2 ∧ P j x ∧ ∀ e ∈ l2, e.1 ≠ v.ident

/-- The named versions are exactly the keys. -/
def SameKeys {V : Type} (l : List (Str × Json)) (m : List (Version × V)) : Prop :=
  ∀ v, (∃ x, (v, x) ∈ m) ↔ ∃ j, (Version.ident v, j) ∈ l

/-- The JSON of a value. -/
def IsPVal : PTy → Json → PVal → Prop
  | .u32, j, x => ∃ n, IsJsonUint (2 ^ 32) j n ∧ x = .nat n
  | .u64, j, x => ∃ n, IsJsonUint (2 ^ 64) j n ∧ x = .nat n
  | .bool, j, x => ∃ b, j = .bool b ∧ x = .bool b
  | .dur, j, x => ∃ n, IsDuration j n ∧ x = .nat n
  | .payset, j, x => ∃ c : PaysetCommit, (j = .str c.ident ∨ j = .obj [(c.ident, .null)]) ∧ x = .payset c
  | .upgrades, j, x => ∃ l m, j = .obj l ∧ x = .upgrades m ∧ IsVMap (IsJsonUint (2 ^ 64)) l m ∧ SameKeys l m

/-- The JSON value given for a parameter: the only member with its name, or the value at its place in an array with one
value per parameter. -/
def ParamAt (j : Json) (f : PField) (v : Json) : Prop :=
  (∃ l, j = .obj l ∧ l.filter (fun e => e.1 = f.name) = [(f.name, v)]) ∨
  (∃ l, j = .arr l ∧ l.length = PField.all.length ∧ ∃ i : Nat, PField.all[i]? = some f ∧ l[i]? = some v)

/-- The JSON of a full set of parameters. -/
def IsParams (j : Json) (p : Params) : Prop := ∀ f, ∃ v, ParamAt j f v ∧ IsPVal f.ty v (p.get f)

/-- The JSON of a table. -/
def IsTable (j : Json) (t : Protocols) : Prop := ∃ l, j = .obj l ∧ IsVMap IsParams l t ∧ SameKeys l t

/-- A value of its Rust type. -/
def FitsP : PTy → PVal → Prop
  | .u32, .nat n => n < 2 ^ 32
  | .u64, .nat n => n < 2 ^ 64
  | .dur, .nat n => n < 2 ^ 64 * 10 ^ 9
  | .upgrades, .upgrades l => (l.map (·.1)).Nodup ∧ ∀ e ∈ l, e.2 < 2 ^ 64
  | _, _ => True

/-- Parameters of their Rust types. -/
def TypedParams (p : Params) : Prop := ∀ f, FitsP f.ty (p.get f)

/-- A table of the Rust type: a map of parameters. -/
def TypedTable (t : Protocols) : Prop := (t.map (·.1)).Nodup ∧ ∀ e ∈ t, TypedParams e.2

/-! ## Names -/

theorem pfield_complete (f : PField) : f ∈ PField.all := by cases f <;> decide

theorem pnames_nodup : (PField.all.map PField.name).Nodup := by decide +kernel

theorem pall_nodup : PField.all.Nodup := List.Nodup.of_map PField.name pnames_nodup

theorem pname_inj {f g : PField} (h : f.name = g.name) : f = g :=
  List.inj_on_of_nodup_map pnames_nodup (pfield_complete f) (pfield_complete g) h

theorem pofName_iff (k : Str) (f : PField) : PField.ofName k = some f ↔ f.name = k := by
  rw [PField.ofName]
  constructor
  · intro h
    have := List.find?_some h
    simpa using this
  · intro h
    cases hf : PField.all.find? (fun f => decide (f.name = k)) with
    | none =>
      rw [List.find?_eq_none] at hf
      exact absurd (decide_eq_true h) (hf f (pfield_complete f))
    | some g =>
      have := List.find?_some hf
      rw [decide_eq_true_eq] at this
      rw [pname_inj (this.trans h.symm)]

theorem version_complete (v : Version) : v ∈ Version.all := by cases v <;> decide

theorem idents_nodup : (Version.all.map Version.ident).Nodup := by decide +kernel

theorem ident_inj {v w : Version} (h : v.ident = w.ident) : v = w :=
  List.inj_on_of_nodup_map idents_nodup (version_complete v) (version_complete w) h

theorem ofIdent_iff (k : Str) (v : Version) : Version.ofIdent k = some v ↔ v.ident = k := by
  rw [Version.ofIdent]
  constructor
  · intro h
    have := List.find?_some h
    simpa using this
  · intro h
    cases hf : Version.all.find? (fun f => decide (f.ident = k)) with
    | none =>
      rw [List.find?_eq_none] at hf
      exact absurd (decide_eq_true h) (hf v (version_complete v))
    | some g =>
      have := List.find?_some hf
      rw [decide_eq_true_eq] at this
      rw [ident_inj (this.trans h.symm)]

theorem payset_ofIdent_iff (k : Str) (c : PaysetCommit) : PaysetCommit.ofIdent k = some c ↔ c.ident = k := by
  rw [PaysetCommit.ofIdent]
  constructor
  · intro h
    have := List.find?_some h
    simpa using this
  · rintro rfl
    cases c <;> rfl

theorem build_get (p : Params) : Params.build p.get = p := by cases p; rfl

/-! ## Values -/

theorem mkDuration_iff (s k : Nat) (n : Nat) :
    (mkDuration s k).bind durNanos = some n ↔ s + k / 10 ^ 9 < 2 ^ 64 ∧ n = s * 10 ^ 9 + k := by
  rw [mkDuration]
  by_cases h : s + k / 1000000000 < u64Lim
  · rw [if_pos h]
    simp only [Option.bind_some, durNanos, Option.some.injEq]
    have : s + k / 10 ^ 9 < 2 ^ 64 := h
    constructor
    · intro e; exact ⟨this, by omega⟩
    · rintro ⟨_, e⟩; omega
  · rw [if_neg h]
    have : ¬ s + k / 10 ^ 9 < 2 ^ 64 := h
    constructor
    · intro e; cases e
    · rintro ⟨e, _⟩; exact absurd e this

theorem decDuration_iff (j : Json) (n : Nat) : (decVal .dur j).bind durNanos = some n ↔ IsDuration j n := by
  constructor
  · intro h
    obtain ⟨v, h1, h2⟩ := Option.bind_eq_some_iff.1 h
    cases j with
    | obj l =>
      simp only [decVal] at h1
      obtain ⟨s, k, js, jk, a, b, c, d⟩ := (durEntries_iff l v).1 h1
      have := (mkDuration_iff s k n).1 (by rw [c]; exact h2)
      refine ⟨s, k, js, jk, a, b, this.1, this.2, ?_⟩
      rcases d with rfl | rfl
      · exact Or.inl rfl
      · exact Or.inr (Or.inl rfl)
    | arr l =>
      match l, h1 with
      | [], h1 => simp [decVal] at h1
      | [_], h1 => simp [decVal] at h1
      | [a, b], h1 =>
        simp only [decVal] at h1
        cases ha : decNat u64Lim a with
        | none => rw [ha] at h1; simp at h1
        | some s =>
          cases hb : decNat u32Lim b with
          | none => rw [ha, hb] at h1; simp at h1
          | some k =>
            rw [ha, hb] at h1
            simp only at h1
            have := (mkDuration_iff s k n).1 (by rw [h1]; exact h2)
            exact ⟨s, k, a, b, (decNat_iff _ _ _).1 ha, (decNat_iff _ _ _).1 hb, this.1, this.2, Or.inr (Or.inr rfl)⟩
      | _ :: _ :: _ :: _, h1 => simp [decVal] at h1
    | _ => simp [decVal] at h1
  · rintro ⟨s, k, js, jk, a, b, c, d, e⟩
    have hm := (mkDuration_iff s k n).2 ⟨c, d⟩
    obtain ⟨v, h1, h2⟩ := Option.bind_eq_some_iff.1 hm
    rcases e with rfl | rfl | rfl
    · have := (durEntries_iff _ v).2 ⟨s, k, js, jk, a, b, h1, Or.inl rfl⟩
      exact Option.bind_eq_some_iff.2 ⟨v, this, h2⟩
    · have := (durEntries_iff _ v).2 ⟨s, k, js, jk, a, b, h1, Or.inr rfl⟩
      exact Option.bind_eq_some_iff.2 ⟨v, this, h2⟩
    · simp only [decVal, (decNat_iff u64Lim js s).2 a, (decNat_iff u32Lim jk k).2 b]
      exact hm

/-! ## Maps -/

section
variable {V : Type} {dec : Json → Option V} {P : Json → V → Prop}

theorem mapLoop_sound (hP : ∀ j x, dec j = some x → P j x) : ∀ (l pre : List (Str × Json)) (acc m : List (Version × V)),
    IsVMap P pre acc → SameKeys pre acc → mapLoop dec acc l = some m → IsVMap P (pre ++ l) m ∧ SameKeys (pre ++ l) m
  | [], pre, acc, m, ha, hk, h => by
    injection h with h; subst h; rw [List.append_nil]; exact ⟨ha, hk⟩
  | (k, j) :: l, pre, acc, m, ha, hk, h => by
    simp only [mapLoop] at h
    cases hv : Version.ofIdent k with
    | none => rw [hv] at h; simp at h
    | some v =>
      cases hx : dec j with
      | none => rw [hv, hx] at h; simp at h
      | some x =>
        rw [hv, hx] at h
        simp only at h
        have e := (ofIdent_iff k v).1 hv
        subst e
        have := mapLoop_sound hP l (pre ++ [(v.ident, j)]) (putLast acc v x) m ?_ ?_ h
        · simpa using this
        · obtain ⟨h1, h2, h3⟩ := ha
          refine ⟨?_, ?_, ?_⟩
          · intro e he
            rcases List.mem_append.1 he with he | he
            · exact h1 e he
            · rw [List.mem_singleton] at he; subst he; exact ⟨v, x, rfl, hP j x hx⟩
          · rw [putLast, List.map_append]
            refine List.nodup_append'.2 ⟨?_, by simp, ?_⟩
            · exact h2.sublist (List.filter_sublist.map _)
            · intro a ha hb
              simp only [List.map_cons, List.map_nil, List.mem_singleton] at hb
              subst hb
              obtain ⟨e, he, hea⟩ := List.mem_map.1 ha
              have := (List.mem_filter.1 he).2
              simp [hea] at this
          · intro w y hwy
            rcases List.mem_append.1 hwy with hwy | hwy
            · obtain ⟨hm, hne⟩ := List.mem_filter.1 hwy
              have hne : w ≠ v := by simpa using hne
              obtain ⟨l1, j', l2, e, hp, hl⟩ := h3 w y hm
              refine ⟨l1, j', l2 ++ [(v.ident, j)], by rw [e]; simp, hp, ?_⟩
              intro e' he'
              rcases List.mem_append.1 he' with he' | he'
              · exact hl e' he'
              · rw [List.mem_singleton] at he'; subst he'; exact fun e => hne (ident_inj e).symm
            · rw [List.mem_singleton] at hwy
              injection hwy with a b
              subst a; subst b
              exact ⟨pre, j, [], rfl, hP j _ hx, by simp⟩
        · intro w
          rw [putLast]
          constructor
          · rintro ⟨y, hy⟩
            rcases List.mem_append.1 hy with hy | hy
            · obtain ⟨j', hj⟩ := (hk w).1 ⟨y, (List.mem_filter.1 hy).1⟩
              exact ⟨j', List.mem_append_left _ hj⟩
            · rw [List.mem_singleton] at hy
              injection hy with a b
              subst a
              exact ⟨j, List.mem_append_right _ (List.mem_singleton.2 rfl)⟩
          · rintro ⟨j', hj⟩
            by_cases hwv : w = v
            · subst hwv; exact ⟨x, List.mem_append_right _ (List.mem_singleton.2 rfl)⟩
            · rcases List.mem_append.1 hj with hj | hj
              · obtain ⟨y, hy⟩ := (hk w).2 ⟨j', hj⟩
                exact ⟨y, List.mem_append_left _ (List.mem_filter.2 ⟨hy, by simpa using hwv⟩)⟩
              · rw [List.mem_singleton] at hj
                injection hj with a b
                exact absurd (ident_inj a) hwv

theorem mapLoop_accepts : ∀ (l : List (Str × Json)) (acc : List (Version × V)),
    (∀ e ∈ l, ∃ v, e.1 = Version.ident v ∧ (dec e.2).isSome) → (mapLoop dec acc l).isSome
  | [], _, _ => rfl
  | (k, j) :: l, acc, h => by
    obtain ⟨v, e, hx⟩ := h (k, j) List.mem_cons_self
    obtain ⟨x, hx⟩ := Option.isSome_iff_exists.1 hx
    simp only [mapLoop, (ofIdent_iff k v).2 e.symm, hx]
    exact mapLoop_accepts l _ (fun e he => h e (List.mem_cons_of_mem _ he))

theorem mapLoop_rejects : ∀ (l : List (Str × Json)) (acc : List (Version × V)) (e : Str × Json), e ∈ l →
    ((∀ v, e.1 ≠ Version.ident v) ∨ dec e.2 = none) → mapLoop dec acc l = none
  | (k, j) :: l, acc, e, he, h => by
    simp only [mapLoop]
    cases hv : Version.ofIdent k with
    | none => simp
    | some v =>
      cases hx : dec j with
      | none => simp
      | some x =>
        simp only
        rcases List.mem_cons.1 he with rfl | he
        · rcases h with h | h
          · exact absurd ((ofIdent_iff k v).1 hv).symm (h v)
          · simp only at h; rw [hx] at h; cases h
        · exact mapLoop_rejects l _ e he h

theorem mapLoop_enc {enc : V → Json} : ∀ (t acc : List (Version × V)), ((acc ++ t).map (·.1)).Nodup →
    (∀ e ∈ t, dec (enc e.2) = some e.2) → mapLoop dec acc (t.map fun e => (e.1.ident, enc e.2)) = some (acc ++ t)
  | [], acc, _, _ => by simp [mapLoop]
  | (v, x) :: t, acc, hn, h => by
    simp only [List.map_cons, mapLoop, (ofIdent_iff _ v).2 rfl, h (v, x) List.mem_cons_self]
    have hfil : acc.filter (fun e => e.1 ≠ v) = acc := by
      rw [List.filter_eq_self]
      intro e he
      simp only [ne_eq, decide_not, Bool.not_eq_eq_eq_not, Bool.not_true, decide_eq_false_iff_not]
      rintro rfl
      rw [List.map_append, List.nodup_append'] at hn
      exact hn.2.2 (List.mem_map_of_mem he) (by simp)
    rw [putLast, hfil, mapLoop_enc t _ (by simpa using hn) (fun e he => h e (List.mem_cons_of_mem _ he))]
    simp

end

theorem isVMap_nil {V : Type} {P : Json → V → Prop} : IsVMap P [] [] := ⟨by simp, by simp, by simp⟩

theorem decPVal_sound (ty : PTy) (j : Json) (x : PVal) (h : decPVal ty j = some x) : IsPVal ty j x := by
  cases ty with
  | u32 =>
    obtain ⟨n, h1, h2⟩ := Option.map_eq_some_iff.1 h
    exact ⟨n, (decNat_iff _ _ _).1 h1, h2.symm⟩
  | u64 =>
    obtain ⟨n, h1, h2⟩ := Option.map_eq_some_iff.1 h
    exact ⟨n, (decNat_iff _ _ _).1 h1, h2.symm⟩
  | bool =>
    cases j with
    | bool b => injection h with h; exact ⟨b, rfl, h.symm⟩
    | _ => simp [decPVal] at h
  | dur =>
    obtain ⟨n, h1, h2⟩ := Option.map_eq_some_iff.1 h
    exact ⟨n, (decDuration_iff _ _).1 h1, h2.symm⟩
  | payset =>
    obtain ⟨c, h1, h2⟩ := Option.map_eq_some_iff.1 h
    refine ⟨c, ?_, h2.symm⟩
    cases j with
    | str s => simp only [decPayset] at h1; rw [(payset_ofIdent_iff s c).1 h1]; exact Or.inl rfl
    | obj l =>
      match l, h1 with
      | [], h1 => simp [decPayset] at h1
      | [(s, .null)], h1 => simp only [decPayset] at h1; rw [(payset_ofIdent_iff s c).1 h1]; exact Or.inr rfl
      | [(s, .bool _)], h1 | [(s, .num _)], h1 | [(s, .float)], h1 | [(s, .str _)], h1 | [(s, .arr _)], h1
      | [(s, .obj _)], h1 => simp [decPayset] at h1
      | _ :: _ :: _, h1 => simp [decPayset] at h1
    | _ => simp [decPayset] at h1
  | upgrades =>
    cases j with
    | obj l =>
      obtain ⟨m, h1, h2⟩ := Option.map_eq_some_iff.1 h
      obtain ⟨a, b⟩ := mapLoop_sound (P := IsJsonUint (2 ^ 64)) (fun j x e => (decNat_iff _ _ _).1 e) l [] [] m isVMap_nil
        (by simp [SameKeys]) h1
      exact ⟨l, m, rfl, h2.symm, by simpa using a, by simpa using b⟩
    | _ => simp [decPVal] at h

theorem decPVal_accepts (ty : PTy) (j : Json) (x : PVal) (h : IsPVal ty j x) : (decPVal ty j).isSome := by
  cases ty with
  | u32 => obtain ⟨n, h1, _⟩ := h; simp [decPVal, (decNat_iff u32Lim j n).2 h1]
  | u64 => obtain ⟨n, h1, _⟩ := h; simp [decPVal, (decNat_iff u64Lim j n).2 h1]
  | bool => obtain ⟨b, rfl, _⟩ := h; rfl
  | dur => obtain ⟨n, h1, _⟩ := h; simp [decPVal, (decDuration_iff j n).2 h1]
  | payset =>
    obtain ⟨c, rfl | rfl, _⟩ := h
    · simp [decPVal, decPayset, (payset_ofIdent_iff _ c).2 rfl]
    · simp [decPVal, decPayset, (payset_ofIdent_iff _ c).2 rfl]
  | upgrades =>
    obtain ⟨l, m, rfl, _, ⟨h1, _⟩, _⟩ := h
    simp only [decPVal, Option.isSome_map]
    refine mapLoop_accepts l [] fun e he => ?_
    obtain ⟨v, x, e1, e2⟩ := h1 e he
    exact ⟨v, e1, by rw [(decNat_iff u64Lim _ _).2 e2]; rfl⟩

/-! ## Parameters -/

theorem readParams_spec (l : List (Str × Json)) : ∀ (st st' : PPartial), readParams st l = some st' → ∀ f : PField,
    (l.filter (fun e => e.1 = f.name) = [] ∧ st' f = st f) ∨
    (∃ v w, l.filter (fun e => e.1 = f.name) = [(f.name, v)] ∧ st f = none ∧ decPVal f.ty v = some w ∧ st' f = some w) := by
  induction l with
  | nil => intro st st' h f; injection h with h; subst h; exact Or.inl ⟨rfl, rfl⟩
  | cons e l ih =>
    obtain ⟨k, j⟩ := e
    intro st st' h f
    rw [readParams] at h
    cases hk : PField.ofName k with
    | none =>
      rw [hk] at h
      have hne : ¬ k = f.name := by
        intro e
        rw [(pofName_iff k f).2 e.symm] at hk
        cases hk
      rw [List.filter_cons_of_neg (by simpa using hne)]
      exact ih st st' h f
    | some g =>
      rw [hk] at h
      have hg := (pofName_iff k g).1 hk
      simp only at h
      cases hst : st g with
      | some x => rw [hst] at h; cases h
      | none =>
        rw [hst] at h
        cases hd : decPVal g.ty j with
        | none => rw [hd] at h; cases h
        | some w =>
          rw [hd] at h
          simp only at h
          by_cases hfg : f = g
          · subst hfg
            rw [List.filter_cons_of_pos (by simp [hg])]
            rcases ih _ _ h f with ⟨h1, h2⟩ | ⟨v, w', h1, h2, _⟩
            · refine Or.inr ⟨j, w, by rw [h1, hg], hst, hd, ?_⟩
              rw [h2]; simp [PPartial.set]
            · simp [PPartial.set] at h2
          · have hne : ¬ k = f.name := fun e => hfg (pname_inj (hg.trans e)).symm
            rw [List.filter_cons_of_neg (by simpa using hne)]
            have hset : (st.set g w) f = st f := by simp [PPartial.set, hfg]
            have := ih _ _ h f
            rw [hset] at this
            exact this

theorem readParams_ok (l : List (Str × Json)) : ∀ (st : PPartial),
    (∀ f : PField, l.filter (fun e => e.1 = f.name) = [] ∨
      ∃ v, l.filter (fun e => e.1 = f.name) = [(f.name, v)] ∧ st f = none ∧ (decPVal f.ty v).isSome) →
    ∃ st', readParams st l = some st' := by
  induction l with
  | nil => intro st _; exact ⟨st, rfl⟩
  | cons e l ih =>
    obtain ⟨k, j⟩ := e
    intro st h
    rw [readParams]
    cases hk : PField.ofName k with
    | none =>
      refine ih st ?_
      intro f
      have hne : ¬ k = f.name := by
        intro e
        rw [(pofName_iff k f).2 e.symm] at hk
        cases hk
      have := h f
      rw [List.filter_cons_of_neg (by simpa using hne)] at this
      exact this
    | some g =>
      have hg := (pofName_iff k g).1 hk
      have h1 := h g
      rw [List.filter_cons_of_pos (by simp [hg])] at h1
      rcases h1 with h1 | ⟨v, h1, h2, h3⟩
      · cases h1
      · have h4 := List.cons.inj h1
        have h5 : j = v := (Prod.mk.inj h4.1).2
        subst h5
        obtain ⟨w, hw⟩ := Option.isSome_iff_exists.1 h3
        simp only [h2, hw]
        refine ih _ ?_
        intro f
        by_cases hfg : f = g
        · subst hfg; exact Or.inl h4.2
        · have hne : ¬ k = f.name := fun e => hfg (pname_inj (hg.trans e)).symm
          have := h f
          rw [List.filter_cons_of_neg (by simpa using hne)] at this
          simpa [PPartial.set, hfg] using this

theorem readParamSeq_spec (fs : List PField) : ∀ (l : List Json) (st st' : PPartial), fs.Nodup →
    readParamSeq st fs l = some st' →
    l.length = fs.length ∧ (∀ f ∉ fs, st' f = st f) ∧
    ∀ (i : Nat) f, fs[i]? = some f → ∃ v w, l[i]? = some v ∧ decPVal f.ty v = some w ∧ st' f = some w := by
  induction fs with
  | nil =>
    intro l st st' _ h
    cases l with
    | nil => injection h with h; subst h; exact ⟨rfl, fun _ _ => rfl, by simp⟩
    | cons j l => cases h
  | cons g fs ih =>
    intro l st st' hn h
    cases l with
    | nil => cases h
    | cons j l =>
      rw [readParamSeq] at h
      cases hd : decPVal g.ty j with
      | none => rw [hd] at h; cases h
      | some w =>
        rw [hd] at h
        rw [List.nodup_cons] at hn
        obtain ⟨h1, h2, h3⟩ := ih l _ _ hn.2 h
        refine ⟨by simp [h1], ?_, ?_⟩
        · intro f hf
          simp only [List.mem_cons, not_or] at hf
          rw [h2 f hf.2]
          simp [PPartial.set, hf.1]
        · intro i f hi
          cases i with
          | zero =>
            simp only [List.getElem?_cons_zero, Option.some.injEq] at hi
            subst hi
            exact ⟨j, w, rfl, hd, by rw [h2 _ hn.1]; simp [PPartial.set]⟩
          | succ i => exact h3 i f hi

theorem readParamSeq_ok : ∀ (fs : List PField) (l : List Json) (st : PPartial), l.length = fs.length →
    (∀ (i : Nat) f v, fs[i]? = some f → l[i]? = some v → (decPVal f.ty v).isSome) → ∃ st', readParamSeq st fs l = some st'
  | [], [], st, _, _ => ⟨st, rfl⟩
  | f :: fs, j :: l, st, hl, h => by
    obtain ⟨w, hw⟩ := Option.isSome_iff_exists.1 (h 0 f j rfl rfl)
    rw [readParamSeq, hw]
    exact readParamSeq_ok fs l _ (by simpa using hl) (fun i g v hg hv => h (i + 1) g v (by simpa using hg) (by simpa using hv))

/-- The value has the constructor of its type. -/
def ShapeOk : PTy → PVal → Prop
  | .u32, .nat _ | .u64, .nat _ | .dur, .nat _ | .bool, .bool _ | .payset, .payset _ | .upgrades, .upgrades _ => True
  | _, _ => False

theorem decPVal_shape (ty : PTy) (j : Json) (x : PVal) (h : decPVal ty j = some x) : ShapeOk ty x := by
  have := decPVal_sound ty j x h
  cases ty with
  | u32 => obtain ⟨_, _, rfl⟩ := this; trivial
  | u64 => obtain ⟨_, _, rfl⟩ := this; trivial
  | bool => obtain ⟨_, _, rfl⟩ := this; trivial
  | dur => obtain ⟨_, _, rfl⟩ := this; trivial
  | payset => obtain ⟨_, _, rfl⟩ := this; trivial
  | upgrades => obtain ⟨_, _, _, rfl, _⟩ := this; trivial

theorem nat_of_shape {x : PVal} (h : ShapeOk .u64 x) : .nat x.nat! = x := by cases x <;> first | rfl | exact h.elim
theorem nat_of_shape32 {x : PVal} (h : ShapeOk .u32 x) : .nat x.nat! = x := by cases x <;> first | rfl | exact h.elim
theorem dur_of_shape {x : PVal} (h : ShapeOk .dur x) : .nat x.nat! = x := by cases x <;> first | rfl | exact h.elim
theorem flag_of_shape {x : PVal} (h : ShapeOk .bool x) : .bool x.flag! = x := by cases x <;> first | rfl | exact h.elim
theorem ups_of_shape {x : PVal} (h : ShapeOk .upgrades x) : .upgrades x.ups! = x := by
  cases x <;> first | rfl | exact h.elim
theorem commit_of_shape {x : PVal} (h : ShapeOk .payset x) : .payset x.commit! = x := by
  cases x <;> first | rfl | exact h.elim

theorem get_build (g : PField → PVal) (h : ∀ f, ShapeOk f.ty (g f)) (f : PField) : (Params.build g).get f = g f := by
  have := h f
  cases f <;> first
    | exact nat_of_shape this | exact nat_of_shape32 this | exact dur_of_shape this | exact flag_of_shape this
    | exact ups_of_shape this | exact commit_of_shape this

theorem finishParams_spec {st : PPartial} {p : Params} (h : finishParams st = some p)
    (hs : ∀ f x, st f = some x → ShapeOk f.ty x) (f : PField) : st f = some (p.get f) := by
  rw [finishParams] at h
  split at h
  · rename_i ha
    injection h with h
    have key : ∀ f, st f = some ((st f).getD (.nat 0)) := by
      intro f
      obtain ⟨w, hw⟩ := Option.isSome_iff_exists.1 (List.all_eq_true.1 ha f (pfield_complete f))
      rw [hw]; rfl
    rw [← h, get_build _ (fun g => hs g _ (key g))]
    exact key f
  · cases h

theorem decodeParams_sound {j : Json} {p : Params} (h : decodeParams j = some p) : IsParams j p := by
  intro f
  cases j with
  | obj l =>
    rw [decodeParams, Option.bind_eq_some_iff] at h
    obtain ⟨st, h1, h2⟩ := h
    have h3 := finishParams_spec h2 (fun f x hx => by
      rcases readParams_spec l _ _ h1 f with ⟨_, h4⟩ | ⟨v, w, _, _, h5, h6⟩
      · rw [h4] at hx; cases hx
      · rw [h6] at hx; injection hx with hx; subst hx; exact decPVal_shape _ _ _ h5) f
    rcases readParams_spec l _ _ h1 f with ⟨_, h4⟩ | ⟨v, w, h4, _, h5, h6⟩
    · rw [h3] at h4; cases h4
    · rw [h3] at h6
      injection h6 with h6
      exact ⟨v, Or.inl ⟨l, rfl, h4⟩, by rw [h6]; exact decPVal_sound _ _ _ h5⟩
  | arr l =>
    rw [decodeParams, Option.bind_eq_some_iff] at h
    obtain ⟨st, h1, h2⟩ := h
    obtain ⟨a1, _, a3⟩ := readParamSeq_spec _ l _ _ pall_nodup h1
    have h3 := finishParams_spec h2 (fun f x hx => by
      obtain ⟨i, hi⟩ := List.getElem?_of_mem (pfield_complete f)
      obtain ⟨v, w, _, b2, b3⟩ := a3 i f hi
      rw [b3] at hx; injection hx with hx; subst hx; exact decPVal_shape _ _ _ b2) f
    obtain ⟨i, hi⟩ := List.getElem?_of_mem (pfield_complete f)
    obtain ⟨v, w, b1, b2, b3⟩ := a3 i f hi
    rw [h3] at b3
    injection b3 with b3
    exact ⟨v, Or.inr ⟨l, rfl, a1, i, hi, b1⟩, by rw [b3]; exact decPVal_sound _ _ _ b2⟩
  | _ => cases h

theorem decodeParams_accepts {j : Json} {p : Params} (h : IsParams j p) : (decodeParams j).isSome := by
  cases j with
  | obj l =>
    have hl : ∀ f : PField, ∃ v, l.filter (fun e => e.1 = f.name) = [(f.name, v)] ∧ (decPVal f.ty v).isSome := by
      intro f
      obtain ⟨v, ⟨l', e, h1⟩ | ⟨l', e, _⟩, h2⟩ := h f
      · injection e with e; subst e; exact ⟨v, h1, decPVal_accepts _ _ _ h2⟩
      · cases e
    obtain ⟨st, hst⟩ := readParams_ok l (fun _ => none) (fun f => by
      obtain ⟨v, h1, h2⟩ := hl f; exact Or.inr ⟨v, h1, rfl, h2⟩)
    rw [decodeParams, hst, Option.bind_some, finishParams, if_pos]
    · rfl
    · rw [List.all_eq_true]
      intro f _
      rcases readParams_spec l _ _ hst f with ⟨h4, _⟩ | ⟨v, w, _, _, _, h6⟩
      · obtain ⟨v, h1, _⟩ := hl f; rw [h4] at h1; cases h1
      · rw [h6]; rfl
  | arr l =>
    have hlen : l.length = PField.all.length := by
      obtain ⟨v, ⟨l', e, _⟩ | ⟨l', e, h1, _⟩, _⟩ := h .upgradeVoteRounds
      · cases e
      · injection e with e; subst e; exact h1
    have hl : ∀ (i : Nat) f v, PField.all[i]? = some f → l[i]? = some v → (decPVal f.ty v).isSome := by
      intro i f v hf hv
      obtain ⟨v', ⟨l', e, _⟩ | ⟨l', e, _, i', h1, h1'⟩, h2⟩ := h f
      · cases e
      · injection e with e; subst e
        obtain ⟨hi, ei⟩ := List.getElem?_eq_some_iff.1 hf
        obtain ⟨hi', ei'⟩ := List.getElem?_eq_some_iff.1 h1
        have : i = i' := (List.Nodup.getElem_inj_iff pall_nodup).1 (ei.trans ei'.symm)
        subst this
        rw [hv] at h1'; injection h1' with h1'; subst h1'
        exact decPVal_accepts _ _ _ h2
    obtain ⟨st, hst⟩ := readParamSeq_ok PField.all l (fun _ => none) hlen hl
    obtain ⟨_, _, a3⟩ := readParamSeq_spec _ l _ _ pall_nodup hst
    rw [decodeParams, hst, Option.bind_some, finishParams, if_pos]
    · rfl
    · rw [List.all_eq_true]
      intro f hf
      obtain ⟨i, hi⟩ := List.getElem?_of_mem hf
      obtain ⟨v, w, _, _, b3⟩ := a3 i f hi
      rw [b3]; rfl
  | _ =>
    obtain ⟨v, ⟨l', e, _⟩ | ⟨l', e, _⟩, _⟩ := h .upgradeVoteRounds
    · cases e
    · cases e

/-! ## What was written is read back -/

theorem get_shape (p : Params) (f : PField) : ShapeOk f.ty (p.get f) := by cases f <;> trivial

theorem decPVal_enc (ty : PTy) (x : PVal) (hs : ShapeOk ty x) (hf : FitsP ty x) : decPVal ty (pvalJson ty x) = some x := by
  cases ty <;> cases x <;> simp only [ShapeOk] at hs
  · rename_i n
    simp only [pvalJson, decPVal]
    rw [(decNat_iff u32Lim _ n).2 ⟨hf, rfl⟩]; rfl
  · rename_i n
    simp only [pvalJson, decPVal]
    rw [(decNat_iff u64Lim _ n).2 ⟨hf, rfl⟩]; rfl
  · rfl
  · rename_i n
    simp only [pvalJson, decPVal]
    have hf : n < 2 ^ 64 * 10 ^ 9 := hf
    have := (decDuration_iff (.obj [(secsName, .num (n / 1000000000 : Nat)), (nanosName, .num (n % 1000000000 : Nat))]) n).2
      ⟨n / 1000000000, n % 1000000000, _, _, ⟨by omega, rfl⟩, ⟨by omega, rfl⟩, by omega, by omega, Or.inl rfl⟩
    rw [this]
    rfl
  · rename_i c
    simp only [pvalJson, decPVal, decPayset, (payset_ofIdent_iff _ c).2 rfl]
    rfl
  · rename_i l
    simp only [pvalJson, decPVal]
    rw [mapLoop_enc (enc := fun n : Nat => Json.num n) l [] hf.1
      (fun e he => (decNat_iff u64Lim _ _).2 ⟨hf.2 e he, rfl⟩)]
    rfl

theorem readParams_enc (g : PField → PVal) (hg : ∀ f, decPVal f.ty (pvalJson f.ty (g f)) = some (g f)) :
    ∀ (fs : List PField) (st : PPartial), fs.Nodup → (∀ f ∈ fs, st f = none) →
    readParams st (fs.map fun f => (f.name, pvalJson f.ty (g f))) = some (fun f => if f ∈ fs then some (g f) else st f)
  | [], st, _, _ => by simp [readParams]
  | f :: fs, st, hn, hst => by
    rw [List.nodup_cons] at hn
    simp only [List.map_cons, readParams, (pofName_iff _ f).2 rfl, hst f List.mem_cons_self, hg f]
    rw [readParams_enc g hg fs _ hn.2 (fun x hx => by
      have : x ≠ f := by rintro rfl; exact hn.1 hx
      simp [PPartial.set, this, hst x (List.mem_cons_of_mem _ hx)])]
    congr 1
    funext x
    by_cases hx : x ∈ fs
    · simp [hx]
    · by_cases hxf : x = f
      · subst hxf; simp [hx, PPartial.set]
      · simp [hx, hxf, PPartial.set]

theorem decodeParams_enc (p : Params) (h : TypedParams p) : decodeParams (paramsJson p) = some p := by
  rw [paramsJson, decodeParams,
    readParams_enc p.get (fun f => decPVal_enc _ _ (get_shape p f) (h f)) _ _ pall_nodup (fun _ _ => rfl)]
  have : (fun f => if f ∈ PField.all then some (p.get f) else none) = fun f => some (p.get f) := by
    funext f; rw [if_pos (pfield_complete f)]
  rw [this, Option.bind_some, finishParams, if_pos (by simp)]
  simp only [Option.getD_some]
  exact congrArg some (build_get p)

theorem decodeTable_enc (t : Protocols) (h : TypedTable t) : decodeTable (tableJson t) = some t := by
  rw [tableJson, decodeTable, mapLoop_enc (enc := paramsJson) t [] h.1 (fun e he => decodeParams_enc _ (h.2 e he))]
  rfl

/-! ## C143 -/

/-- **C143**: a saved table of overrides is read back as the same table, with every parameter of every version, in whatever
order the entries were written: loading gives the merge with it. No other file changes. -/
theorem C143_saved_is_loaded (J : JsonLib) (fs : Fs) (dir : Str) (params consensus : Protocols) (ht : TypedTable params)
    (hne : params ≠ []) (hJ : J.parse (J.print (tableJson params)) = some (tableJson params)) :
    ∃ fs', saveFile J fs dir params = .ok fs' ∧
      (∀ r, merge consensus params = .ok r → preloadFile J fs' dir consensus = .ok r ∧
        loadFile J fs' dir consensus = .ok (if r = [] then consensus else r)) ∧
      ∀ p, p ≠ joinPath dir ['c', 'o', 'n', 's', 'e', 'n', 's', 'u', 's', '.', 'j', 's', 'o', 'n'] → fs' p = fs p := by
  refine ⟨fun p => if p = joinPath dir overrideFilename then some (J.print (tableJson params)) else fs p, ?_, ?_, ?_⟩
  · rw [saveFile, if_neg (by simpa using hne)]
  · intro r hr
    have hpre : preloadFile J (fun p => if p = joinPath dir overrideFilename then some (J.print (tableJson params)) else fs p)
        dir consensus = .ok r := by
      simp only [preloadFile, if_true, hJ, Option.bind_some, decodeTable_enc params ht, hr]
    refine ⟨hpre, ?_⟩
    rw [loadFile, hpre, Res.ok_bind]
    cases r <;> rfl
  · intro p hp
    exact if_neg hp

/-- **C143**, reading: the table read from a file has the last entry of each version named in it, with exactly the
parameters given there. -/
theorem C143_reads (J : JsonLib) (fs : Fs) (dir content : Str) (consensus r : Protocols)
    (hc : fs (joinPath dir ['c', 'o', 'n', 's', 'e', 'n', 's', 'u', 's', '.', 'j', 's', 'o', 'n']) = some content)
    (hr : preloadFile J fs dir consensus = .ok r) :
    ∃ j t, J.parse content = some j ∧ IsTable j t ∧ merge consensus t = .ok r := by
  have hc : fs (joinPath dir overrideFilename) = some content := hc
  rw [preloadFile, hc] at hr
  simp only at hr
  cases hj : J.parse content with
  | none => rw [hj] at hr; simp at hr
  | some j =>
    rw [hj, Option.bind_some] at hr
    cases hd : decodeTable j with
    | none => rw [hd] at hr; simp at hr
    | some t =>
      rw [hd] at hr
      simp only at hr
      refine ⟨j, t, rfl, ?_, ?_⟩
      · cases j with
        | obj l =>
          obtain ⟨a, b⟩ := mapLoop_sound (P := IsParams) (fun j x e => decodeParams_sound e) l [] [] t isVMap_nil
            (by simp [SameKeys]) hd
          exact ⟨l, rfl, by simpa using a, by simpa using b⟩
        | _ => cases hd
      · cases hm : merge consensus t with
        | ok x => rw [hm] at hr; simpa using hr
        | err x => rw [hm] at hr; cases hr
        | panic => rw [hm] at hr; cases hr

/-- **C143**, refusal: a file is refused exactly if it is not the JSON of a table, and then nothing is loaded. -/
theorem C143_refuses (J : JsonLib) (fs : Fs) (dir content : Str) (consensus : Protocols)
    (hc : fs (joinPath dir ['c', 'o', 'n', 's', 'e', 'n', 's', 'u', 's', '.', 'j', 's', 'o', 'n']) = some content) :
    (preloadFile J fs dir consensus = .err .other ↔ ¬ ∃ j t, J.parse content = some j ∧ IsTable j t) ∧
    (loadFile J fs dir consensus = .err .other ↔ ¬ ∃ j t, J.parse content = some j ∧ IsTable j t) := by
  have hc : fs (joinPath dir overrideFilename) = some content := hc
  have key : ((J.parse content).bind decodeTable = none) ↔ ¬ ∃ j t, J.parse content = some j ∧ IsTable j t := by
    constructor
    · rintro h ⟨j, t, hj, l, rfl, ⟨h1, _⟩, _⟩
      rw [hj, Option.bind_some] at h
      have : (decodeTable (.obj l)).isSome := mapLoop_accepts l [] fun e he => by
        obtain ⟨v, x, e1, e2⟩ := h1 e he
        exact ⟨v, e1, decodeParams_accepts e2⟩
      rw [h] at this; cases this
    · intro h
      cases hj : J.parse content with
      | none => rfl
      | some j =>
        rw [Option.bind_some]
        cases hd : decodeTable j with
        | none => rfl
        | some t =>
          exfalso
          apply h
          cases j with
          | obj l =>
            obtain ⟨a, b⟩ := mapLoop_sound (P := IsParams) (fun j x e => decodeParams_sound e) l [] [] t isVMap_nil
              (by simp [SameKeys]) hd
            exact ⟨_, t, hj, l, rfl, by simpa using a, by simpa using b⟩
          | _ => cases hd
  have hpre : preloadFile J fs dir consensus = .err .other ↔ (J.parse content).bind decodeTable = none := by
    rw [preloadFile, hc]
    simp only
    cases hd : (J.parse content).bind decodeTable with
    | none => simp
    | some t => simp only; cases merge consensus t <;> simp
  refine ⟨hpre.trans key, Iff.trans ?_ (hpre.trans key)⟩
  rw [loadFile]
  cases preloadFile J fs dir consensus with
  | ok r => rw [Res.ok_bind]; cases r <;> simp [pure]
  | err e => rfl
  | panic => rfl

/-- **C143**, names: a version is named in the file by its number, not by the text that `Display` gives. The 98 parameters
have different names. -/
theorem C143_names (v : Version) :
    v.ident = (if v = .future then ['F', 'u', 't', 'u', 'r', 'e']
      else (if rank v ≤ 6 then ['D', 'e', 'p', 'r', 'e', 'c', 'a', 't', 'e', 'd'] else []) ++
        'V' :: Nat.toDigits 10 (rank v)) ∧
    v.ident ≠ v.str ∧ PField.all.length = 98 ∧ (PField.all.map PField.name).Nodup := by
  refine ⟨?_, ?_, by decide, pnames_nodup⟩ <;> cases v <;> decide

instance (ty : PTy) (x : PVal) : Decidable (FitsP ty x) := by
  cases ty <;> cases x <;> simp only [FitsP] <;> infer_instance

/-- The built-in table is of the Rust type, so it could be saved and read back. -/
theorem builtin_typed : TypedTable builtin := by
  have key : ∀ e ∈ builtin, ∀ f ∈ PField.all, FitsP f.ty (e.2.get f) := by decide +kernel
  exact ⟨by decide, fun e he f => key e he f (pfield_complete f)⟩

/-- An example library whose texts are pretty names of a table and of an object with an empty member. -/
def twoTexts : JsonLib where
  parse s := if s = ['t'] then some (tableJson builtin) else
    if s = ['d'] then some (.obj [(Version.ident .v8, .obj [])]) else none
  print _ := ['t']

example : ∃ fs', saveFile twoTexts (fun _ => none) ['d'] builtin = .ok fs' ∧ (∃ r, merge builtin builtin = .ok r ∧
    preloadFile twoTexts fs' ['d'] builtin = .ok r) := by
  have hm : ∃ r, merge builtin builtin = .ok r := ⟨_, rfl⟩
  obtain ⟨r, hr⟩ := hm
  obtain ⟨fs', h1, h2, _⟩ := C143_saved_is_loaded twoTexts (fun _ => none) ['d'] builtin builtin builtin_typed
    (by decide +kernel) (by simp only [twoTexts, if_true])
  exact ⟨fs', h1, r, hr, (h2 r hr).1⟩

/-- What the file is to the functions of C60: absent, a table, or unreadable. -/
def fileState (J : JsonLib) (fs : Fs) (dir : Str) : OverrideFile :=
  match fs (joinPath dir overrideFilename) with
  | none => .absent
  | some content =>
    match (J.parse content).bind decodeTable with
    | none => .bad
    | some t => .table t

/-- **C143**: the functions on files do what C60 states about the state of the override file, with the text of the file
between them. -/
theorem C143_refines (J : JsonLib) (fs : Fs) (dir : Str) (params consensus : Protocols) :
    preloadFile J fs dir consensus = preload (fileState J fs dir) consensus ∧
    loadFile J fs dir consensus = load (fileState J fs dir) consensus ∧
    (TypedTable params → J.parse (J.print (tableJson params)) = some (tableJson params) →
      match saveFile J fs dir params with
      | .ok fs' => save (fileState J fs dir) params = .ok (fileState J fs' dir)
      | .err e => save (fileState J fs dir) params = .err e
      | .panic => False) := by
  have hpre : preloadFile J fs dir consensus = preload (fileState J fs dir) consensus := by
    rw [preloadFile, fileState]
    cases fs (joinPath dir overrideFilename) with
    | none => rfl
    | some content =>
      simp only
      cases (J.parse content).bind decodeTable with
      | none => rfl
      | some t => rfl
  refine ⟨hpre, by rw [loadFile, Consensus.load, hpre], ?_⟩
  intro ht hJ
  have hw : fileState J (fun p => if p = joinPath dir overrideFilename then some (J.print (tableJson params)) else fs p) dir =
      .table params := by
    simp only [fileState, if_true, hJ, Option.bind_some, decodeTable_enc params ht]
  cases params with
  | nil =>
    rw [saveFile, if_pos (show List.isEmpty ([] : Protocols) = true from rfl)]
    cases hfs : fs (joinPath dir overrideFilename) with
    | none => simp only [fileState, hfs]; rfl
    | some content =>
      simp only
      rw [hw, save, if_pos (show List.isEmpty ([] : Protocols) = true from rfl)]
      have : ∃ f', removeFile (fileState J fs dir) = .ok f' := by
        simp only [fileState, hfs]
        cases (J.parse content).bind decodeTable <;> exact ⟨_, rfl⟩
      obtain ⟨f', hf'⟩ := this
      rw [hf']; rfl
  | cons e l =>
    rw [saveFile, if_neg (by simp)]
    simp only
    rw [hw, save, if_neg (by simp)]
    rfl

/-! ## C144 -/

/-- **C144 is violated**: a file with a version whose object lacks any parameter, such as the empty object, deletes nothing.
The whole file is refused, and if it is in the working directory, every use of the table of parameters crashes. -/
theorem C144_violated (J : JsonLib) (fs : Fs) (dir content : Str) (consensus : Protocols) (l m : List (Str × Json))
    (v : Version) (f : PField)
    (hc : fs (joinPath dir ['c', 'o', 'n', 's', 'e', 'n', 's', 'u', 's', '.', 'j', 's', 'o', 'n']) = some content)
    (hj : J.parse content = some (.obj l)) (hv : (v.ident, .obj m) ∈ l) (hf : ∀ e ∈ m, e.1 ≠ f.name) :
    loadFile J fs dir consensus = .err .other ∧ (dir = ['.'] → globalConsensus J fs = .panic) := by
  have hno : ¬ ∃ j t, J.parse content = some j ∧ IsTable j t := by
    rintro ⟨j, t, e, l', rfl, ⟨h1, _⟩, _⟩
    rw [hj] at e; injection e with e; injection e with e; subst e
    obtain ⟨w, x, _, h2⟩ := h1 _ hv
    obtain ⟨y, ⟨l', e, h3⟩ | ⟨l', e, _⟩, _⟩ := h2 f
    · injection e with e; subst e
      have : (f.name, y) ∈ m.filter (fun e => e.1 = f.name) := by rw [h3]; exact List.mem_singleton.2 rfl
      exact hf _ (List.mem_filter.1 this).1 rfl
    · cases e
  have := fun c => (C143_refuses J fs dir content c hc).2.2 hno
  refine ⟨this consensus, ?_⟩
  rintro rfl
  rw [globalConsensus, this]

example : loadFile twoTexts (fun _ => some ['d']) ['.'] builtin = .err .other ∧
    globalConsensus twoTexts (fun _ => some ['d']) = .panic := by
  have := C144_violated twoTexts (fun _ => some ['d']) ['.'] ['d'] builtin [(Version.ident .v8, .obj [])] [] .v8
    .minTxFee rfl rfl (List.mem_singleton.2 rfl) (by simp)
  exact ⟨this.1, this.2 rfl⟩

/-- **C144**: a file in the working directory that is not the JSON of a table crashes every use of the parameters; without
a file the table is the built-in one. -/
theorem C144_global (J : JsonLib) (fs : Fs) :
    (fs ['.', '/', 'c', 'o', 'n', 's', 'e', 'n', 's', 'u', 's', '.', 'j', 's', 'o', 'n'] = none →
      globalConsensus J fs = .ok builtin) ∧
    ∀ content, fs ['.', '/', 'c', 'o', 'n', 's', 'e', 'n', 's', 'u', 's', '.', 'j', 's', 'o', 'n'] = some content →
      (¬ ∃ j t, J.parse content = some j ∧ IsTable j t) → globalConsensus J fs = .panic := by
  constructor
  · intro h
    have h : fs (joinPath ['.'] overrideFilename) = none := h
    have : preloadFile J fs ['.'] builtin = .ok builtin := by rw [preloadFile, h]
    rw [globalConsensus, loadFile, this]
    rfl
  · intro content h hno
    rw [globalConsensus, (C143_refuses J fs ['.'] content builtin h).2.2 hno]

/-- **C144**, what holds: an entry with all parameters and no approved upgrade, saved and loaded, deletes the version and
the upgrades to it and leaves the rest of the table alone. Missing: entries without parameters. -/
theorem C144_deletes_partial (J : JsonLib) (fs : Fs) (dir : Str) (consensus : Protocols) (v : Version) (p : Params)
    (hcons : (consensus.map (·.1)).Nodup) (hp : TypedParams p) (he : p.approvedUpgrades = [])
    (hJ : J.parse (J.print (tableJson [(v, p)])) = some (tableJson [(v, p)])) :
    ∃ fs' r, saveFile J fs dir [(v, p)] = .ok fs' ∧ preloadFile J fs' dir consensus = .ok r ∧ lookup r v = none ∧
      ∀ w, w ≠ v → (lookup consensus w = none → lookup r w = none) ∧
        ∀ q, lookup consensus w = some q → ∃ us, lookup r w = some { q with approvedUpgrades := us } ∧
          ∀ x n, (x, n) ∈ us ↔ (x, n) ∈ q.approvedUpgrades ∧ x ≠ v := by
  have hdel : ∀ w, deletes [(v, p)] w ↔ w = v := by
    intro w
    constructor
    · rintro ⟨q, hq, _⟩; rw [List.mem_singleton] at hq; exact (Prod.mk.inj hq).1
    · rintro rfl; exact ⟨p, List.mem_singleton.2 rfl, he⟩
  obtain ⟨r, hr, hspec⟩ := C59_merge_partial consensus [(v, p)] hcons (by simp) (by
    intro d hd w q _ hne _ q' hq'
    rw [List.mem_singleton] at hq'
    exact hne (((Prod.mk.inj hq').1).trans ((hdel d).1 hd).symm))
  obtain ⟨fs', h1, h2, _⟩ := C143_saved_is_loaded J fs dir [(v, p)] consensus
    ⟨by simp, fun e he => by rw [List.mem_singleton] at he; subst he; exact hp⟩ (by simp) hJ
  refine ⟨fs', r, h1, (h2 r hr).1, (hspec v).2.1 ((hdel v).2 rfl), ?_⟩
  intro w hw
  obtain ⟨a, b⟩ := (hspec w).2.2 (fun q hq => hw (Prod.mk.inj (List.mem_singleton.1 hq)).1)
  refine ⟨a, fun q hq => ?_⟩
  obtain ⟨us, c, d⟩ := b q hq
  exact ⟨us, c, fun x n => by rw [d, hdel]⟩

example : TypedParams {} ∧ ({} : Params).approvedUpgrades = [] ∧ (builtin.map (·.1)).Nodup := by
  refine ⟨fun f => ?_, rfl, by decide⟩
  have key : ∀ f ∈ PField.all, FitsP f.ty (Params.get {} f) := by decide +kernel
  exact key f (pfield_complete f)

/-- The parameters of `struct ConsensusParams`, as documented in the source (consensus.rs lines 19 and following). -/
def parameterNames : List Str :=
  ["upgrade_vote_rounds upgrade_threshold default_upgrade_wait_rounds min_upgrade_wait_rounds",
   "max_upgrade_wait_rounds max_version_string_len max_tx_bytes_per_block max_tx_note_bytes max_tx_life",
   "approved_upgrades support_genesis_hash require_genesis_hash default_key_dilution min_balance min_tx_fee",
   "enable_fee_pooling enable_app_cost_pooling reward_unit rewards_rate_refresh_interval seed_lookback",
   "seed_refresh_interval max_bal_lookback num_proposers soft_committee_size soft_committee_threshold",
   "cert_committee_size cert_committee_threshold next_committee_size next_committee_threshold",
   "late_committee_size late_committee_threshold redo_committee_size redo_committee_threshold",
   "down_committee_size down_committee_threshold agreement_filter_timeout agreement_filter_timeout_period0",
   "fast_recovery_lambda fast_partition_recovery payset_commit max_timestamp_increment",
   "support_signed_tx_in_block force_non_participating_fee_sink apply_data rewards_in_apply_data",
   "credential_domain_separation_enabled support_become_non_participating_transactions",
   "pending_residue_rewards asset max_assets_per_account max_asset_name_bytes max_asset_unit_name_bytes",
   "max_asset_url_bytes tx_counter support_tx_groups max_tx_group_size support_transaction_leases",
   "fix_transaction_leases logic_sig_version logic_sig_max_size logic_sig_max_cost max_asset_decimals",
   "support_rekeying application max_app_args max_app_total_arg_len max_app_program_len",
   "max_app_total_program_len max_extra_app_program_pages max_app_tx_accounts max_app_tx_foreign_apps",
   "max_app_tx_foreign_assets max_app_total_tx_references max_app_program_cost max_app_key_len",
   "max_app_bytes_value_len max_app_sum_key_value_lens max_inner_transactions max_apps_created",
   "max_apps_opted_in app_flat_params_min_balance app_flat_opt_in_min_balance schema_min_balance_per_entry",
   "schema_uint_min_balance schema_bytes_min_balance max_local_schema_entries max_global_schema_entries",
   "maximum_minimum_balance compact_cert_rounds compact_cert_top_voters compact_cert_voters_lookback",
   "compact_cert_weight_threshold compact_cert_sec_kq enable_asset_close_amount",
   "initial_rewards_rate_calculation no_empty_local_deltas enable_keyreg_coherency_check",
   "enable_extra_pages_on_app_update"].flatMap fun l => wordsOf l.toList

/-- The names of the parameters in the file are those of the source, in its order. -/
theorem C143_field_names : PField.all.map PField.name = parameterNames := by decide +kernel

/-- A case of `C143_refuses`: a file that is no JSON text. -/
example : preloadFile twoTexts (fun _ => some ['x']) ['d'] builtin = .err .other :=
  (C143_refuses twoTexts (fun _ => some ['x']) ['d'] ['x'] builtin rfl).1.2 fun ⟨j, _, h, _⟩ => by cases h

/-- A case of `C143_reads`: a file with the built-in table. -/
example : ∃ r t, preloadFile twoTexts (fun _ => some ['t']) ['d'] builtin = .ok r ∧ IsTable (tableJson builtin) t ∧
    merge builtin t = .ok r := by
  have hm : ∃ r, merge builtin builtin = .ok r := ⟨_, rfl⟩
  obtain ⟨r, hr⟩ := hm
  obtain ⟨fs', h1, h2, h3⟩ := C143_saved_is_loaded twoTexts (fun _ => some ['t']) ['d'] builtin builtin builtin_typed
    (by decide +kernel) (by simp only [twoTexts, if_true])
  have h4 : fs' = fun _ => some ['t'] := by
    funext p
    by_cases hp : p = joinPath ['d'] overrideFilename
    · rw [saveFile, if_neg (by decide +kernel)] at h1
      injection h1 with h1
      rw [← h1, hp]; simp [twoTexts]
    · exact h3 p hp
  subst h4
  obtain ⟨j, t, h5, h6, h7⟩ := C143_reads twoTexts (fun _ => some ['t']) ['d'] ['t'] builtin r rfl (h2 r hr).1
  refine ⟨r, t, (h2 r hr).1, ?_, h7⟩
  have : twoTexts.parse ['t'] = some (tableJson builtin) := by simp only [twoTexts, if_true]
  rw [this] at h5
  injection h5 with h5
  rw [h5]; exact h6

end Verif.Props
