import Verif.Model.Consensus
import Mathlib.Tactic.ByContra
/-!
# Properties of the consensus protocol table and its overrides (C59, C60, C61)
-/

namespace Verif.Props
open Verif Verif.Consensus

section Maps
variable {V : Type}

theorem lookup_nil (v : Version) : lookup ([] : List (Version × V)) v = none := rfl

theorem lookup_cons (e : Version × V) (m : List (Version × V)) (v : Version) :
    lookup (e :: m) v = if e.1 = v then some e.2 else lookup m v := by
  rw [lookup, List.find?_cons]
  by_cases h : e.1 = v
  · simp [h]
  · simp [h, lookup]

theorem lookup_remove (m : List (Version × V)) (w v : Version) :
    lookup (remove m w) v = if v = w then none else lookup m v := by
  induction m with
  | nil => simp [remove, lookup_nil]
  | cons e m ih =>
    rw [remove, List.filter_cons]
    by_cases h : e.1 = w
    · simp only [h, ne_eq, not_true_eq_false, decide_false, Bool.false_eq_true, if_false]
      rw [← remove, ih, lookup_cons, h]
      by_cases hv : v = w
      · simp [hv]
      · rw [if_neg hv, if_neg hv, if_neg (fun e => hv e.symm)]
    · simp only [h, ne_eq, not_false_eq_true, decide_true, if_true]
      rw [← remove, lookup_cons, lookup_cons, ih]
      by_cases hv : v = w
      · rw [if_pos hv, if_pos hv, if_neg (fun e => h (e.trans hv))]
      · rw [if_neg hv, if_neg hv]

theorem lookup_insert (m : List (Version × V)) (w v : Version) (x : V) :
    lookup (Consensus.insert m w x) v = if v = w then some x else lookup m v := by
  rw [Consensus.insert, lookup_cons, lookup_remove]
  by_cases h : v = w
  · simp [h]
  · rw [if_neg (fun e => h e.symm), if_neg h, if_neg h]

theorem lookup_isSome (m : List (Version × V)) (v : Version) :
    (lookup m v).isSome = true ↔ v ∈ m.map (·.1) := by
  induction m with
  | nil => simp [lookup_nil]
  | cons e m ih =>
    rw [lookup_cons, List.map_cons, List.mem_cons]
    by_cases h : e.1 = v
    · simp [h]
    · rw [if_neg h, ih]; exact ⟨Or.inr, fun e => e.resolve_left (fun e => h e.symm)⟩

theorem lookup_eq_some {m : List (Version × V)} (hn : (m.map (·.1)).Nodup) (v : Version) (x : V) :
    lookup m v = some x ↔ (v, x) ∈ m := by
  induction m with
  | nil => simp [lookup_nil]
  | cons e m ih =>
    obtain ⟨k, y⟩ := e
    simp only [List.map_cons, List.nodup_cons] at hn
    rw [lookup_cons, List.mem_cons]
    by_cases h : k = v
    · subst h
      simp only [if_true, Option.some.injEq, Prod.mk.injEq, true_and]
      refine ⟨fun e => Or.inl e.symm, fun e => ?_⟩
      rcases e with e | e
      · exact e.symm
      · exact absurd (List.mem_map.2 ⟨(k, x), e, rfl⟩) hn.1
    · simp only [h, if_false, ih hn.2, Prod.mk.injEq]
      refine ⟨Or.inr, fun e => ?_⟩
      rcases e with e | e
      · exact absurd e.1.symm h
      · exact e

end Maps

/-! ## C59: merging -/

/-- The versions an override set deletes: those given without any upgrade. -/
def deletes (cfg : Protocols) (v : Version) : Prop := ∃ p, (v, p) ∈ cfg ∧ p.approvedUpgrades = []

/-- What a merged table should contain, as the documentation says: overrides replace or add, deleted versions
disappear, together with the upgrades to them. -/
def MergeSpec (self cfg result : Protocols) : Prop :=
  ∀ v,
    (∀ p, (v, p) ∈ cfg → p.approvedUpgrades ≠ [] → lookup result v = some p) ∧
    (deletes cfg v → lookup result v = none) ∧
    ((∀ p, (v, p) ∉ cfg) →
      (lookup self v = none → lookup result v = none) ∧
      ∀ p, lookup self v = some p → ∃ us, lookup result v = some { p with approvedUpgrades := us } ∧
        ∀ w n, (w, n) ∈ us ↔ (w, n) ∈ p.approvedUpgrades ∧ ¬ deletes cfg w)

/-- No version with an approved upgrade to a deleted version is itself overridden. -/
def Independent (self cfg : Protocols) : Prop :=
  ∀ d, deletes cfg d → ∀ v p, (v, p) ∈ self → v ≠ d → contains p.approvedUpgrades d = true → ∀ q, (v, q) ∉ cfg

/-- Drop from the upgrades of `p` those to versions that the list `ds` names. -/
def dropUpgrades (p : Params) (ds : List Version) : Params :=
  { p with approvedUpgrades := p.approvedUpgrades.filter (fun e => e.1 ∉ ds) }

theorem remove_not_contains (p : Params) (d : Version) (h : contains p.approvedUpgrades d = false) :
    remove p.approvedUpgrades d = p.approvedUpgrades := by
  rw [remove, List.filter_eq_self]
  intro e he
  by_contra hc
  simp only [ne_eq, decide_not, Bool.not_eq_eq_eq_not, Bool.not_true, decide_eq_false_iff_not,
    Decidable.not_not] at hc
  have : (lookup p.approvedUpgrades d).isSome = true :=
    (lookup_isSome _ _).2 (List.mem_map.2 ⟨e, he, hc⟩)
  rw [contains, this] at h; cases h

/-- The effect of the inner loop. -/
theorem deleteVersion_spec (d : Version) : ∀ (self st : Protocols), (self.map (·.1)).Nodup →
    (∀ v p, (v, p) ∈ self → v ≠ d → contains p.approvedUpgrades d = true → lookup st v ≠ none) →
    ∃ st', deleteVersion d self st = .ok st' ∧ ∀ v, lookup st' v =
      match lookup self v with
      | none => lookup st v
      | some p => if v = d then none
        else if contains p.approvedUpgrades d then
          (lookup st v).map (fun q => { q with approvedUpgrades := remove q.approvedUpgrades d })
        else lookup st v
  | [], st, _, _ => ⟨st, rfl, fun v => rfl⟩
  | (k, par) :: rest, st, hn, hs => by
    have hn' : k ∉ rest.map (·.1) ∧ (rest.map (·.1)).Nodup := by simpa using hn
    have hk : lookup rest k = none := by
      cases hl : lookup rest k with
      | none => rfl
      | some x => exact absurd ((lookup_isSome rest k).1 (by rw [hl]; rfl)) hn'.1
    rw [deleteVersion]
    by_cases hkd : k = d
    · rw [if_pos hkd]
      obtain ⟨st', h1, h2⟩ := deleteVersion_spec d rest (remove st k) hn'.2 (by
        intro v p hv hvd hc
        rw [lookup_remove, if_neg (fun e => hvd (e.trans hkd))]
        exact hs v p (by simp [hv]) hvd hc)
      refine ⟨st', h1, ?_⟩
      intro v
      rw [h2 v, lookup_cons]
      by_cases hkv : k = v
      · subst hkv
        rw [hk]
        simp only [lookup_remove, if_true, if_pos hkd]
      · simp only [hkv, if_false, lookup_remove, if_neg (fun e => hkv (Eq.symm e))]
    · rw [if_neg hkd]
      by_cases hc : contains par.approvedUpgrades d = true
      · rw [if_pos hc, removeUpgrade]
        have hne := hs k par (by simp) hkd hc
        cases hl : lookup st k with
        | none => exact absurd hl hne
        | some q =>
          simp only [Res.ok_bind]
          obtain ⟨st', h1, h2⟩ := deleteVersion_spec d rest
            (Consensus.insert st k { q with approvedUpgrades := remove q.approvedUpgrades d }) hn'.2 (by
            intro v p hv hvd hcv
            rw [lookup_insert]
            split
            · simp
            · exact hs v p (by simp [hv]) hvd hcv)
          refine ⟨st', h1, ?_⟩
          intro v
          rw [h2 v, lookup_cons]
          by_cases hkv : k = v
          · subst hkv
            simp [hk, hkd, lookup_insert, hc, hl]
          · simp only [hkv, if_false, lookup_insert, if_neg (fun e => hkv (Eq.symm e))]
      · rw [if_neg hc]
        obtain ⟨st', h1, h2⟩ := deleteVersion_spec d rest st hn'.2
          (fun v p hv => hs v p (by simp [hv]))
        refine ⟨st', h1, ?_⟩
        intro v
        rw [h2 v, lookup_cons]
        by_cases hkv : k = v
        · subst hkv
          simp [hk, hkd, hc]
        · simp only [hkv, if_false]

/-- The versions deleted by a part of the override list, in order. -/
def deletedList (cfg : Protocols) : List Version := (cfg.filter (fun e => e.2.approvedUpgrades.isEmpty)).map (·.1)

theorem mem_deletedList (cfg : Protocols) (v : Version) : v ∈ deletedList cfg ↔ deletes cfg v := by
  simp only [deletedList, List.mem_map, List.mem_filter, deletes, List.isEmpty_iff]
  constructor
  · rintro ⟨⟨k, p⟩, ⟨h1, h2⟩, rfl⟩; exact ⟨p, h1, h2⟩
  · rintro ⟨p, h1, h2⟩; exact ⟨(v, p), ⟨h1, h2⟩, rfl⟩

/-- What is known after the part `done` of the override list. -/
def LoopInv (self done st : Protocols) : Prop :=
  ∀ v, lookup st v =
    match lookup done v with
    | some p => if p.approvedUpgrades = [] then none else some p
    | none => (lookup self v).map (fun p => dropUpgrades p (deletedList done))

theorem mergeLoop_spec (self cfg : Protocols) (hself : (self.map (·.1)).Nodup) (hcfg : (cfg.map (·.1)).Nodup)
    (hind : Independent self cfg) : ∀ (todo done st : Protocols), done ++ todo = cfg → LoopInv self done st →
      ∃ r, mergeLoop self todo st = .ok r ∧ LoopInv self cfg r
  | [], done, st, he, hi => ⟨st, rfl, by rw [← he, List.append_nil]; exact hi⟩
  | (d, params) :: todo, done, st, he, hi => by
    have hin : (d, params) ∈ cfg := by rw [← he]; simp
    have hnd : lookup done d = none := by
      cases hl : lookup done d with
      | none => rfl
      | some x =>
        have := (lookup_isSome done d).1 (by rw [hl]; rfl)
        rw [← he, List.map_append, List.nodup_append] at hcfg
        exact absurd rfl (hcfg.2.2 d this d (by simp))
    have hlookup : ∀ v, lookup (done ++ [(d, params)]) v = if v = d then some params else lookup done v := by
      intro v
      rw [lookup, List.find?_append]
      by_cases hv : v = d
      · subst hv
        have : List.find? (fun e => decide (e.1 = v)) done = none := by
          rw [lookup] at hnd
          simpa using hnd
        simp [this]
      · rw [if_neg hv]
        simp only [List.find?_cons, List.find?_nil, decide_eq_false (fun e => hv (Eq.symm e))]
        rw [Option.or_none]; rfl
    rw [mergeLoop]
    by_cases hempty : params.approvedUpgrades = []
    · rw [if_pos (by rw [hempty]; rfl)]
      have hdel : deletes cfg d := ⟨params, hin, hempty⟩
      have hdl : deletedList (done ++ [(d, params)]) = deletedList done ++ [d] := by
        simp [deletedList, List.filter_append, hempty]
      -- entries with an upgrade to `d` are untouched by the overrides
      have hout : ∀ v p, lookup self v = some p → v ≠ d → contains p.approvedUpgrades d = true →
          lookup done v = none := by
        intro v p hp hvd hc
        cases hl : lookup done v with
        | none => rfl
        | some x =>
          have hx : (v, x) ∈ cfg := by
            have hnd' : (done.map (·.1)).Nodup := by
              rw [← he, List.map_append, List.nodup_append] at hcfg; exact hcfg.1
            rw [← he]
            exact List.mem_append_left _ ((lookup_eq_some hnd' v x).1 hl)
          exact absurd hx (hind d hdel v p ((lookup_eq_some hself v p).1 hp) hvd hc x)
      obtain ⟨st', h1, h2⟩ := deleteVersion_spec d self st hself (by
        intro v p hp hvd hc
        have hp' := (lookup_eq_some hself v p).2 hp
        rw [hi v, hout v p hp' hvd hc, hp']
        simp)
      rw [h1, Res.ok_bind]
      refine mergeLoop_spec self cfg hself hcfg hind todo (done ++ [(d, params)]) st' (by rw [← he]; simp) ?_
      intro v
      rw [h2 v, hlookup v, hi v]
      by_cases hv : v = d
      · subst hv
        simp only [hnd, if_true, hempty]
        cases hl : lookup self v <;> simp
      · simp only [if_neg hv]
        cases hl : lookup self v with
        | none => rfl
        | some p =>
          simp only [Option.map_some]
          by_cases hc : contains p.approvedUpgrades d = true
          · rw [if_pos hc, hout v p hl hv hc]
            simp only [Option.map_some, Option.some.injEq, dropUpgrades, hdl, remove, List.filter_filter]
            congr 1
            apply List.filter_congr
            intro e _
            simp only [List.mem_append, List.mem_singleton, ne_eq, decide_not, not_or, Bool.decide_and]
            rw [Bool.and_comm]
          · rw [if_neg hc]
            cases hd : lookup done v with
            | some q => rfl
            | none =>
              have hr := remove_not_contains p d (by simpa using hc)
              simp only [Option.some.injEq, dropUpgrades, hdl]
              congr 1
              conv => lhs; rw [← hr, remove, List.filter_filter]
              apply List.filter_congr
              intro e _
              simp only [List.mem_append, List.mem_singleton, ne_eq, decide_not, not_or, Bool.decide_and]
    · rw [if_neg (by simpa using hempty)]
      refine mergeLoop_spec self cfg hself hcfg hind todo (done ++ [(d, params)]) _ (by rw [← he]; simp) ?_
      have hdl : deletedList (done ++ [(d, params)]) = deletedList done := by
        simp [deletedList, List.filter_append, hempty]
      intro v
      rw [lookup_insert, hlookup v]
      by_cases hv : v = d
      · simp [hv, hempty]
      · simp only [if_neg hv, hdl, hi v]

/-- C59, partial: if no version with an upgrade to a deleted version is itself overridden, merging succeeds and
gives the documented result, whatever the iteration orders of both maps. Missing: override sets that do touch such a
version, for which the claim is false (below). -/
theorem C59_merge_partial (self cfg : Protocols) (hself : (self.map (·.1)).Nodup)
    (hcfg : (cfg.map (·.1)).Nodup) (hind : Independent self cfg) :
    ∃ r, merge self cfg = .ok r ∧ MergeSpec self cfg r := by
  obtain ⟨r, h1, h2⟩ := mergeLoop_spec self cfg hself hcfg hind cfg [] self rfl (by
    intro v
    simp only [lookup_nil]
    cases lookup self v with
    | none => rfl
    | some p =>
      simp only [dropUpgrades, deletedList, List.filter_nil, List.map_nil, List.not_mem_nil, not_false_eq_true,
        decide_true, Option.map_some]
      rw [List.filter_eq_self.2 (fun _ _ => rfl)])
  refine ⟨r, h1, ?_⟩
  intro v
  refine ⟨?_, ?_, ?_⟩
  · intro p hp hne
    rw [h2 v, (lookup_eq_some hcfg v p).2 hp]
    simp [hne]
  · rintro ⟨p, hp, he⟩
    rw [h2 v, (lookup_eq_some hcfg v p).2 hp]
    simp [he]
  · intro hnot
    have hl : lookup cfg v = none := by
      cases hl : lookup cfg v with
      | none => rfl
      | some p => exact absurd ((lookup_eq_some hcfg v p).1 hl) (hnot p)
    rw [h2 v, hl]
    refine ⟨fun e => by rw [e]; rfl, ?_⟩
    intro p hp
    rw [hp]
    refine ⟨_, rfl, ?_⟩
    intro w n
    simp [List.mem_filter, mem_deletedList]

/-- C59, partial: under the same condition the result does not depend on the iteration orders. -/
theorem C59_order_independent_partial (self cfg self' cfg' : Protocols) (hself : (self.map (·.1)).Nodup)
    (hcfg : (cfg.map (·.1)).Nodup) (hind : Independent self cfg) (hp : self.Perm self') (hq : cfg.Perm cfg') :
    ∃ r r', merge self cfg = .ok r ∧ merge self' cfg' = .ok r' ∧ ∀ v,
      (lookup r v).isSome = (lookup r' v).isSome ∧
      ∀ p p', lookup r v = some p → lookup r' v = some p' →
        { p with approvedUpgrades := [] } = { p' with approvedUpgrades := [] } ∧
        ∀ e, e ∈ p.approvedUpgrades ↔ e ∈ p'.approvedUpgrades := by
  have hself' : (self'.map (·.1)).Nodup := (hp.map _).nodup_iff.1 hself
  have hcfg' : (cfg'.map (·.1)).Nodup := (hq.map _).nodup_iff.1 hcfg
  have hdel : ∀ d, deletes cfg' d ↔ deletes cfg d := by
    intro d
    constructor
    · rintro ⟨p, h1, h2⟩; exact ⟨p, hq.mem_iff.2 h1, h2⟩
    · rintro ⟨p, h1, h2⟩; exact ⟨p, hq.mem_iff.1 h1, h2⟩
  have hind' : Independent self' cfg' := by
    intro d hd v p hv hne hc q hqm
    exact hind d ((hdel d).1 hd) v p (hp.mem_iff.2 hv) hne hc q (hq.mem_iff.2 hqm)
  obtain ⟨r, h1, h2⟩ := C59_merge_partial self cfg hself hcfg hind
  obtain ⟨r', h1', h2'⟩ := C59_merge_partial self' cfg' hself' hcfg' hind'
  refine ⟨r, r', h1, h1', ?_⟩
  intro v
  have hlself : lookup self' v = lookup self v := by
    cases hl : lookup self v with
    | some p =>
      rw [(lookup_eq_some hself' v p)]
      exact hp.mem_iff.1 ((lookup_eq_some hself v p).1 hl)
    | none =>
      cases hl' : lookup self' v with
      | none => rfl
      | some p =>
        have := (lookup_eq_some hself v p).2 (hp.mem_iff.2 ((lookup_eq_some hself' v p).1 hl'))
        rw [hl] at this; cases this
  by_cases hin : ∃ p, (v, p) ∈ cfg
  · obtain ⟨p, hpc⟩ := hin
    by_cases he : p.approvedUpgrades = []
    · have a := (h2 v).2.1 ⟨p, hpc, he⟩
      have b := (h2' v).2.1 ⟨p, hq.mem_iff.1 hpc, he⟩
      rw [a, b]
      exact ⟨rfl, fun p p' hx => by cases hx⟩
    · have a := (h2 v).1 p hpc he
      have b := (h2' v).1 p (hq.mem_iff.1 hpc) he
      rw [a, b]
      refine ⟨rfl, fun x x' hx hx' => ?_⟩
      cases hx; cases hx'
      exact ⟨rfl, fun _ => Iff.rfl⟩
  · have hno : ∀ p, (v, p) ∉ cfg := fun p hx => hin ⟨p, hx⟩
    have hno' : ∀ p, (v, p) ∉ cfg' := fun p hx => hin ⟨p, hq.mem_iff.2 hx⟩
    obtain ⟨a1, a2⟩ := (h2 v).2.2 hno
    obtain ⟨b1, b2⟩ := (h2' v).2.2 hno'
    rw [hlself] at b1 b2
    cases hl : lookup self v with
    | none =>
      rw [a1 hl, b1 hl]
      exact ⟨rfl, fun p p' hx => by cases hx⟩
    | some p =>
      obtain ⟨us, e1, e2⟩ := a2 p hl
      obtain ⟨us', e1', e2'⟩ := b2 p hl
      rw [e1, e1']
      refine ⟨rfl, fun x x' hx hx' => ?_⟩
      cases hx; cases hx'
      refine ⟨rfl, fun e => ?_⟩
      obtain ⟨w, n⟩ := e
      simp only
      rw [e2, e2', hdel]

/-- An override entry that deletes its version. -/
def deletion (v : Version) : Version × Params := (v, {})

/-- C59 is violated: deleting two versions of the built-in table, one of which has an upgrade to the other, crashes
in one iteration order and succeeds in the other. -/
theorem C59_merge_crashes :
    merge builtin [deletion .v7, deletion .v8] = .panic ∧
    ∃ r, merge builtin [deletion .v8, deletion .v7] = .ok r :=
  ⟨by rfl, ⟨_, rfl⟩⟩

/-- An override of `v7` that (still) has an upgrade to `v8`. -/
def overrideV7 : Version × Params := (.v7, { v7Base with minTxFee := 1, approvedUpgrades := [(.v8, 0)] })

/-- C59 is violated: overriding `v7` while deleting `v8` gives different tables in the two iteration orders; in one of
them an upgrade to the deleted version remains. -/
theorem C59_merge_order_dependent :
    (∃ r p, merge builtin [overrideV7, deletion .v8] = .ok r ∧ lookup r .v7 = some p ∧ p.approvedUpgrades = []) ∧
    (∃ r p, merge builtin [deletion .v8, overrideV7] = .ok r ∧ lookup r .v7 = some p ∧
      p.approvedUpgrades = [(.v8, 0)] ∧ lookup r .v8 = none) :=
  ⟨⟨_, _, rfl, rfl, rfl⟩, ⟨_, _, rfl, rfl, rfl, rfl⟩⟩

/-- C59: the full claim is false. -/
theorem C59_full_claim_false :
    ¬ ∀ self cfg : Protocols, (self.map (·.1)).Nodup → (cfg.map (·.1)).Nodup →
      ∃ r, merge self cfg = .ok r := by
  intro h
  obtain ⟨r, hr⟩ := h builtin [deletion .v7, deletion .v8] (by decide) (by decide)
  rw [C59_merge_crashes.1] at hr
  cases hr

-- the hypotheses of the partial theorems are met by deleting `future` and adding an override of `v30`
example : Independent builtin [deletion .future, (.v30, { v30Base with approvedUpgrades := [(.future, 0)] })] ∧
    (builtin.map (·.1)).Nodup := by
  refine ⟨?_, by decide⟩
  rintro d ⟨p, hp, he⟩ v q hq hvd hc
  have hd : d = .future := by
    simp only [deletion, List.mem_cons, Prod.mk.injEq, List.not_mem_nil, or_false] at hp
    rcases hp with h | h
    · exact h.1
    · rw [h.2] at he; cases he
  subst hd
  exfalso
  have : ∀ e ∈ builtin, contains e.2.approvedUpgrades .future = false := by decide
  rw [this _ hq] at hc; cases hc

/-! ## C60: the override file -/

/-- C60 is violated: saving an empty override set, when it succeeds, leaves an override file behind; when there was no
file, it fails. -/
theorem C60_empty_save_leaves_file :
    (∀ f f', save f [] = .ok f' → f' = .table []) ∧ save .absent [] = .err .notFound := by
  refine ⟨?_, rfl⟩
  intro f f' h
  rw [save, if_pos (show List.isEmpty ([] : Protocols) = true from rfl)] at h
  obtain ⟨_, _, h2⟩ := Res.bind_eq_ok.1 h
  injection h2 with h2
  exact h2.symm

/-- C60, partial: the file left behind by an empty save has no effect when loaded, and a non-empty set is saved over
whatever was there and loads as the merge; a file that cannot be read is reported and nothing is loaded. Missing: that an empty save removes the file and succeeds without one. -/
theorem C60_save_load_partial (f f' : OverrideFile) (params consensus : Protocols) :
    (save f [] = .ok f' → load f' consensus = .ok consensus ∧ preload f' consensus = .ok consensus) ∧
    (params ≠ [] → save f params = .ok (.table params) ∧
      ∀ r, merge consensus params = .ok r → preload (.table params) consensus = .ok r ∧
        (r ≠ [] → load (.table params) consensus = .ok r)) ∧
    preload .absent consensus = .ok consensus ∧
    preload .bad consensus = .err .other ∧ load .bad consensus = .err .other := by
  refine ⟨?_, ?_, rfl, rfl, rfl⟩
  · intro h
    rw [C60_empty_save_leaves_file.1 f f' h]
    have hp : preload (.table []) consensus = .ok consensus := rfl
    refine ⟨?_, hp⟩
    rw [load, hp, Res.ok_bind]
    split <;> rfl
  · intro hne
    have hp : ∀ r, merge consensus params = .ok r → preload (.table params) consensus = .ok r := by
      intro r hr; rw [preload, hr]
    refine ⟨by rw [save, if_neg (by simpa using hne)]; rfl, fun r hr => ⟨hp r hr, fun hr2 => ?_⟩⟩
    rw [load, hp r hr, Res.ok_bind, if_neg (by simpa using hr2)]
    rfl

example : ∃ f, save (.table [deletion .v8]) [] = .ok f := ⟨_, rfl⟩

/-! ## C61: the built-in table -/

/-- Position of a version in the release history. -/
def rank : Version → Nat
  | .deprecatedV0 => 0 | .deprecatedV1 => 1 | .deprecatedV2 => 2 | .deprecatedV3 => 3 | .deprecatedV4 => 4
  | .deprecatedV5 => 5 | .deprecatedV6 => 6 | .v7 => 7 | .v8 => 8 | .v9 => 9 | .v10 => 10 | .v11 => 11
  | .v12 => 12 | .v13 => 13 | .v14 => 14 | .v15 => 15 | .v16 => 16 | .v17 => 17 | .v18 => 18 | .v19 => 19
  | .v20 => 20 | .v21 => 21 | .v22 => 22 | .v23 => 23 | .v24 => 24 | .v25 => 25 | .v26 => 26 | .v27 => 27
  | .v28 => 28 | .v29 => 29 | .v30 => 30 | .future => 31

/-- `w` can be reached from `v` by following approved upgrades, in `n` steps. -/
inductive UpgradePath (t : Protocols) : Version → Nat → Version → Prop
  | refl (v : Version) : UpgradePath t v 0 v
  | step (u v w : Version) (n d : Nat) (p : Params) : UpgradePath t u n v → lookup t v = some p →
      (w, d) ∈ p.approvedUpgrades → UpgradePath t u (n + 1) w

/-- One row of the table is coherent. -/
def rowOk (t : Protocols) (e : Version × Params) : Bool :=
  let p := e.2
  p.approvedUpgrades.all (fun u =>
    p.minUpgradeWaitRounds ≤ u.2 && u.2 ≤ p.maxUpgradeWaitRounds &&
    (contains t u.1) && rank e.1 < rank u.1 && u.1 != .future &&
    u.1.str.length ≤ p.maxVersionStringLen) &&
  p.minUpgradeWaitRounds ≤ p.maxUpgradeWaitRounds && p.upgradeThreshold ≤ p.upgradeVoteRounds &&
  p.upgradeVoteRounds < 2 * p.upgradeThreshold &&
  p.softCommitteeThreshold ≤ p.softCommitteeSize && p.softCommitteeSize < 2 * p.softCommitteeThreshold &&
  p.certCommitteeThreshold ≤ p.certCommitteeSize && p.certCommitteeSize < 2 * p.certCommitteeThreshold &&
  p.nextCommitteeThreshold ≤ p.nextCommitteeSize && p.nextCommitteeSize < 2 * p.nextCommitteeThreshold &&
  p.lateCommitteeThreshold ≤ p.lateCommitteeSize && p.lateCommitteeSize < 2 * p.lateCommitteeThreshold &&
  p.redoCommitteeThreshold ≤ p.redoCommitteeSize && p.redoCommitteeSize < 2 * p.redoCommitteeThreshold &&
  p.downCommitteeThreshold ≤ p.downCommitteeSize && p.downCommitteeSize < 2 * p.downCommitteeThreshold &&
  (e.1 == .v30 || e.1 == .future || !p.approvedUpgrades.isEmpty)

theorem builtin_rows : builtin.all (rowOk builtin) = true := by decide +kernel

theorem builtin_nodup : (builtin.map (·.1)).Nodup := by decide

/-- C61: in every built-in protocol each approved upgrade has a delay inside the protocol's window, exists in the
table, is newer, released, and its name fits; thresholds lie between half of and the whole committee; the vote threshold
is more than half of and at most the voting period. -/
theorem C61_rows_coherent (v : Version) (p : Params) (h : lookup builtin v = some p) :
    (∀ w d, (w, d) ∈ p.approvedUpgrades → p.minUpgradeWaitRounds ≤ d ∧ d ≤ p.maxUpgradeWaitRounds ∧
      (∃ q, lookup builtin w = some q) ∧ rank v < rank w ∧ w ≠ .future ∧
      w.str.length ≤ p.maxVersionStringLen) ∧
    p.upgradeThreshold ≤ p.upgradeVoteRounds ∧ p.upgradeVoteRounds < 2 * p.upgradeThreshold ∧
    (∀ st ∈ [(p.softCommitteeSize, p.softCommitteeThreshold), (p.certCommitteeSize, p.certCommitteeThreshold),
        (p.nextCommitteeSize, p.nextCommitteeThreshold), (p.lateCommitteeSize, p.lateCommitteeThreshold),
        (p.redoCommitteeSize, p.redoCommitteeThreshold), (p.downCommitteeSize, p.downCommitteeThreshold)],
      st.2 ≤ st.1 ∧ st.1 < 2 * st.2) ∧
    (v ≠ .v30 → v ≠ .future → p.approvedUpgrades ≠ []) := by
  have hrow := List.all_eq_true.1 builtin_rows (v, p) ((lookup_eq_some builtin_nodup v p).1 h)
  simp only [rowOk, Bool.and_eq_true, List.all_eq_true, decide_eq_true_eq, Bool.or_eq_true, beq_iff_eq, bne_iff_ne,
    Bool.not_eq_true', List.isEmpty_eq_false_iff, ne_eq] at hrow
  obtain ⟨⟨⟨⟨⟨⟨⟨⟨⟨⟨⟨⟨⟨⟨⟨⟨hu, _⟩, h2⟩, h3⟩, h4⟩, h5⟩, h6⟩, h7⟩, h8⟩, h9⟩, h10⟩, h11⟩, h12⟩, h13⟩, h14⟩, h15⟩,
    h16⟩ := hrow
  refine ⟨?_, h2, h3, ?_, ?_⟩
  · intro w d hw
    obtain ⟨⟨⟨⟨⟨a, b⟩, c⟩, e⟩, f⟩, g⟩ := hu _ hw
    exact ⟨a, b, Option.isSome_iff_exists.1 c, e, f, g⟩
  · intro st hst
    simp only [List.mem_cons, List.not_mem_nil, or_false] at hst
    rcases hst with rfl | rfl | rfl | rfl | rfl | rfl <;> constructor <;> assumption
  · intro a b
    rcases h16 with (h | h) | h
    · exact absurd h a
    · exact absurd h b
    · exact h

/-- C61: following approved upgrades from any version of the table, each step leads to a newer released version of
the table, so a path has at most as many steps as there are releases between its ends; and a path from a released
version that cannot be continued has arrived at `v30`. -/
theorem C61_paths_end_in_v30 (u w : Version) (n : Nat) (hu : ∃ p, lookup builtin u = some p) (hf : u ≠ .future)
    (hp : UpgradePath builtin u n w) :
    (∃ q, lookup builtin w = some q) ∧ w ≠ .future ∧ rank u + n ≤ rank w ∧ rank w ≤ 30 ∧
    ((∀ q, lookup builtin w = some q → q.approvedUpgrades = []) → w = .v30) := by
  have main : (∃ q, lookup builtin w = some q) ∧ w ≠ .future ∧ rank u + n ≤ rank w := by
    induction hp with
    | refl => exact ⟨hu, hf, Nat.le_refl _⟩
    | step v w n d p _ hl hm ih =>
      obtain ⟨_, _, h3⟩ := ih
      obtain ⟨_, _, h5, h6, h7, _⟩ := (C61_rows_coherent v p hl).1 w d hm
      exact ⟨h5, h7, by omega⟩
  obtain ⟨h1, h2, h3⟩ := main
  refine ⟨h1, h2, h3, ?_, ?_⟩
  · cases w <;> first | exact absurd rfl h2 | decide
  · intro hstop
    obtain ⟨q, hq⟩ := h1
    by_contra hne
    exact (C61_rows_coherent w q hq).2.2.2.2 hne h2 (hstop q hq)

/-- C61: the way from any released version in the table to `v30` exists. -/
theorem C61_v30_reachable (u : Version) (hu : ∃ p, lookup builtin u = some p) (hf : u ≠ .future) :
    ∃ n, UpgradePath builtin u n .v30 := by
  have trans : ∀ {a b c : Version} {m n : Nat}, UpgradePath builtin a m b → UpgradePath builtin b n c →
      UpgradePath builtin a (m + n) c := by
    intro a b c m n h1 h2
    induction h2 with
    | refl => exact h1
    | step v w n d p _ hl hm ih => exact UpgradePath.step a v w (m + n) d p ih hl hm
  have key : ∀ (k : Nat) (u : Version), 30 - rank u ≤ k → (∃ p, lookup builtin u = some p) → u ≠ .future →
      ∃ n, UpgradePath builtin u n .v30 := by
    intro k
    induction k with
    | zero =>
      intro u hk hu hf
      have : u = .v30 := by cases u <;> first | rfl | exact absurd rfl hf | (simp [rank] at hk)
      subst this
      exact ⟨0, .refl _⟩
    | succ k ih =>
      intro u hk hu hf
      obtain ⟨p, hp⟩ := hu
      by_cases h30 : u = .v30
      · subst h30; exact ⟨0, .refl _⟩
      · have hc := C61_rows_coherent u p hp
        cases hl : p.approvedUpgrades with
        | nil => exact absurd hl (hc.2.2.2.2 h30 hf)
        | cons e es =>
          obtain ⟨w, d⟩ := e
          have hm : (w, d) ∈ p.approvedUpgrades := by rw [hl]; simp
          obtain ⟨_, _, h3, h4, h5, _⟩ := hc.1 w d hm
          have hw30 : rank u < 30 := by
            have : rank w ≤ 30 := by cases w <;> first | exact absurd rfl h5 | decide
            omega
          obtain ⟨n, hn⟩ := ih w (by omega) h3 h5
          exact ⟨_, trans (UpgradePath.step u u w 0 d p (.refl u) hp hm) hn⟩
  exact key _ u (Nat.le_refl _) hu hf

/-- C61: version names identify versions. -/
theorem C61_names_distinct (v w : Version) (h : v.str = w.str) : v = w := by
  have hall : ∀ v : Version, v ∈ Version.all := by intro v; cases v <;> decide
  have key : (Version.all.map Version.str).Nodup := by decide +kernel
  have hmem : ∀ (l : List Version), (l.map Version.str).Nodup → v ∈ l → w ∈ l → v = w := by
    intro l hn hv hw
    induction l with
    | nil => simp at hv
    | cons a l ih =>
      simp only [List.map_cons, List.nodup_cons] at hn
      rcases List.mem_cons.1 hv with rfl | hv2
      · rcases List.mem_cons.1 hw with rfl | hw
        · rfl
        · exact absurd (List.mem_map.2 ⟨w, hw, h.symm⟩) hn.1
      · rcases List.mem_cons.1 hw with rfl | hw
        · exact absurd (List.mem_map.2 ⟨v, hv2, h⟩ : w.str ∈ l.map Version.str) hn.1
        · exact ih hn.2 hv2 hw
  exact hmem _ key (hall v) (hall w)

example : UpgradePath builtin .v16 2 .v19 :=
  .step _ .v17 _ 1 0 _ (.step _ .v16 _ 0 0 _ (.refl _) rfl (by decide)) rfl (by decide)

/-- A case of `C61_rows_coherent`, `C61_paths_end_in_v30` and `C61_v30_reachable`: protocol 16, whose upgrade goes to 17. -/
example : ∃ p n, lookup builtin .v16 = some p ∧ p.approvedUpgrades ≠ [] ∧ UpgradePath builtin .v16 n .v30 ∧ n ≤ 14 := by
  cases hp : lookup builtin .v16 with
  | none => exact absurd (show (lookup builtin .v16).isSome = true by decide +kernel) (by rw [hp]; decide)
  | some p =>
    obtain ⟨n, hn⟩ := C61_v30_reachable .v16 ⟨p, hp⟩ (by decide)
    obtain ⟨_, _, h, _⟩ := C61_paths_end_in_v30 .v16 .v30 n ⟨p, hp⟩ (by decide) hn
    refine ⟨p, n, rfl, (C61_rows_coherent .v16 p hp).2.2.2.2 (by decide) (by decide), hn, ?_⟩
    simp only [rank] at h
    omega

/-- A case of `C59_merge_partial` and `C59_order_independent_partial`: one deletion that nothing refers to, and one override. -/
example : ∃ r r', merge builtin [deletion .future, overrideV7] = .ok r ∧ merge builtin [overrideV7, deletion .future] = .ok r' ∧
    MergeSpec builtin [deletion .future, overrideV7] r ∧ ∀ v, (lookup r v).isSome = (lookup r' v).isSome := by
  have hind : Independent builtin [deletion .future, overrideV7] := by
    rintro d ⟨p, hp, he⟩ v q hq hvd hc
    have hd : d = .future := by
      simp only [deletion, overrideV7, List.mem_cons, Prod.mk.injEq, List.not_mem_nil, or_false] at hp
      rcases hp with ⟨h, _⟩ | ⟨_, h⟩
      · exact h
      · rw [h] at he; simp at he
    subst hd
    have : builtin.all (fun e => !contains e.2.approvedUpgrades .future) = true := by decide +kernel
    have := List.all_eq_true.1 this _ hq
    simp only [hc] at this
    cases this
  obtain ⟨r, h1, h2⟩ := C59_merge_partial builtin [deletion .future, overrideV7] (by decide) (by decide) hind
  obtain ⟨r1, r', h3, h4, h5⟩ := C59_order_independent_partial builtin [deletion .future, overrideV7] builtin
    [overrideV7, deletion .future] (by decide) (by decide) hind (.refl _) (.swap _ _ _)
  rw [h1] at h3
  cases h3
  exact ⟨r, r', h1, h4, h2, fun v => (h5 v).1⟩

end Verif.Props
