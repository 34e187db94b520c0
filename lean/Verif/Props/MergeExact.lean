import Verif.Props.Consensus
/-!
# C59: exactly which override sets merge as documented
-/
namespace Verif.Props
open Verif Verif.Consensus

/-- Whatever has an approved upgrade to a deleted version is not itself deleted, and if it is overridden the new entry does not
offer that upgrade. -/
def Separate (self cfg : Protocols) : Prop :=
  ∀ d, deletes cfg d → ∀ v p, (v, p) ∈ self → v ≠ d → contains p.approvedUpgrades d = true →
    ∀ q, (v, q) ∈ cfg → q.approvedUpgrades ≠ [] ∧ contains q.approvedUpgrades d = false

/-- A version is deleted before one that it could be upgraded to. -/
def DeletedTooSoon (self cfg : Protocols) : Prop :=
  ∃ pre v p mid d q post par, cfg = pre ++ (v, p) :: (mid ++ (d, q) :: post) ∧ p.approvedUpgrades = [] ∧
    q.approvedUpgrades = [] ∧ (v, par) ∈ self ∧ contains par.approvedUpgrades d = true

/-! ## The crash -/

/-- The inner loop crashes when an entry that it has to change is gone. -/
theorem deleteVersion_panics (d : Version) : ∀ (self st : Protocols), (self.map (·.1)).Nodup →
    (∃ v p, (v, p) ∈ self ∧ v ≠ d ∧ contains p.approvedUpgrades d = true ∧ lookup st v = none) →
    deleteVersion d self st = .panic
  | [], _, _, ⟨_, _, h, _⟩ => by simp at h
  | (k, par) :: rest, st, hn, ⟨v, p, hv, hvd, hc, hl⟩ => by
    have hn' : k ∉ rest.map (·.1) ∧ (rest.map (·.1)).Nodup := by simpa using hn
    rw [deleteVersion]
    by_cases hkd : k = d
    · rw [if_pos hkd]
      refine deleteVersion_panics d rest _ hn'.2 ⟨v, p, ?_, hvd, hc, ?_⟩
      · rcases List.mem_cons.1 hv with h | h
        · exact absurd (by injection h with h1 h2; exact h1.trans hkd) hvd
        · exact h
      · rw [lookup_remove, hl]; simp
    · rw [if_neg hkd]
      by_cases hkc : contains par.approvedUpgrades d = true
      · rw [if_pos hkc, removeUpgrade]
        cases hk : lookup st k with
        | none => rfl
        | some q =>
          simp only [Res.ok_bind]
          have hvk : v ≠ k := by rintro rfl; rw [hl] at hk; cases hk
          refine deleteVersion_panics d rest _ hn'.2 ⟨v, p, ?_, hvd, hc, ?_⟩
          · rcases List.mem_cons.1 hv with h | h
            · exact absurd (by injection h) hvk
            · exact h
          · rw [lookup_insert, if_neg hvk, hl]
      · rw [if_neg hkc]
        refine deleteVersion_panics d rest _ hn'.2 ⟨v, p, ?_, hvd, hc, hl⟩
        rcases List.mem_cons.1 hv with h | h
        · injection h with h1 h2; subst h2; exact absurd hc hkc
        · exact h

/-- Which entries are there: among the versions of the original table, those not deleted so far. -/
def Present (self done st : Protocols) : Prop := ∀ v ∈ self.map (·.1), lookup st v = none ↔ deletes done v

theorem deletes_append (a b : Protocols) (v : Version) : deletes (a ++ b) v ↔ deletes a v ∨ deletes b v := by
  simp only [deletes, List.mem_append]
  constructor
  · rintro ⟨p, h | h, e⟩
    · exact Or.inl ⟨p, h, e⟩
    · exact Or.inr ⟨p, h, e⟩
  · rintro (⟨p, h, e⟩ | ⟨p, h, e⟩)
    · exact ⟨p, Or.inl h, e⟩
    · exact ⟨p, Or.inr h, e⟩

theorem deletes_single (d v : Version) (q : Params) : deletes [(d, q)] v ↔ v = d ∧ q.approvedUpgrades = [] := by
  simp only [deletes, List.mem_singleton, Prod.mk.injEq]
  constructor
  · rintro ⟨p, ⟨h1, h2⟩, e⟩; exact ⟨h1, h2 ▸ e⟩
  · rintro ⟨h1, e⟩; exact ⟨q, ⟨h1, rfl⟩, e⟩

/-- What remains to be done crashes because of a version deleted too soon, or there is none. -/
def CrashCase (self todo done st : Protocols) : Prop :=
  ((mergeLoop self todo st = .panic ∧ ∃ pre d q post, todo = pre ++ (d, q) :: post ∧ q.approvedUpgrades = [] ∧
          ∃ v par, (v, par) ∈ self ∧ v ≠ d ∧ contains par.approvedUpgrades d = true ∧ deletes (done ++ pre) v) ∨
         ((∃ r, mergeLoop self todo st = .ok r) ∧ ∀ pre d q post, todo = pre ++ (d, q) :: post → q.approvedUpgrades = [] →
          ∀ v par, (v, par) ∈ self → v ≠ d → contains par.approvedUpgrades d = true → ¬ deletes (done ++ pre) v))

theorem mergeLoop_crash (self cfg : Protocols) (hself : (self.map (·.1)).Nodup) (hcfg : (cfg.map (·.1)).Nodup) :
    ∀ (todo done st : Protocols), done ++ todo = cfg → Present self done st →
      CrashCase self todo done st
  | [], done, st, _, _ => Or.inr ⟨⟨st, rfl⟩, fun pre d q post h => by simp at h⟩
  | (d, q) :: todo, done, st, he, hp => by
    have hnot : ¬ ∃ x, (d, x) ∈ done := by
      rintro ⟨x, hx⟩
      rw [← he, List.map_append, List.nodup_append] at hcfg
      exact hcfg.2.2 d (List.mem_map.2 ⟨_, hx, rfl⟩) d (by simp) rfl
    -- the rest of the list, once this entry is done
    have step : ∀ st', Present self (done ++ [(d, q)]) st' → mergeLoop self ((d, q) :: todo) st = mergeLoop self todo st' →
        (q.approvedUpgrades = [] → ∀ v par, (v, par) ∈ self → v ≠ d → contains par.approvedUpgrades d = true →
          ¬ deletes done v) → CrashCase self ((d, q) :: todo) done st := fun st' hp' hm hfirst => by
      have ih := mergeLoop_crash self cfg hself hcfg todo (done ++ [(d, q)]) st' (by rw [← he]; simp) hp'
      rw [CrashCase, ← hm] at ih
      refine ih.imp ?_ ?_
      · rintro ⟨h1, pre, d', q', post, rfl, h3, v, par, h4, h5, h6, h7⟩
        exact ⟨h1, (d, q) :: pre, d', q', post, rfl, h3, v, par, h4, h5, h6, by simpa using h7⟩
      · rintro ⟨h1, h2⟩
        refine ⟨h1, ?_⟩
        rintro (_ | ⟨e, pre⟩) d' q' post h hq' v par h4 h5 h6
        · simp only [List.nil_append, List.cons.injEq, Prod.mk.injEq] at h
          obtain ⟨⟨rfl, rfl⟩, _⟩ := h
          rw [List.append_nil]
          exact hfirst hq' v par h4 h5 h6
        · simp only [List.cons_append, List.cons.injEq] at h
          obtain ⟨rfl, h⟩ := h
          have := h2 pre d' q' post h hq' v par h4 h5 h6
          simpa using this
    by_cases hq : q.approvedUpgrades = []
    · by_cases hbad : ∃ v par, (v, par) ∈ self ∧ v ≠ d ∧ contains par.approvedUpgrades d = true ∧ deletes done v
      · refine Or.inl ⟨?_, [], d, q, todo, rfl, hq, ?_⟩
        · obtain ⟨v, par, h1, h2, h3, h4⟩ := hbad
          rw [mergeLoop, if_pos (by rw [hq]; rfl), deleteVersion_panics d self st hself
            ⟨v, par, h1, h2, h3, (hp v (List.mem_map.2 ⟨_, h1, rfl⟩)).2 h4⟩]
          rfl
        · obtain ⟨v, par, h1, h2, h3, h4⟩ := hbad
          exact ⟨v, par, h1, h2, h3, by simpa using h4⟩
      · obtain ⟨st', h1, h2⟩ := deleteVersion_spec d self st hself (fun v par hv hvd hc hl =>
          hbad ⟨v, par, hv, hvd, hc, (hp v (List.mem_map.2 ⟨_, hv, rfl⟩)).1 hl⟩)
        refine step st' ?_ (by rw [mergeLoop, if_pos (by rw [hq]; rfl), h1]; rfl)
          (fun _ v par a b c e => hbad ⟨v, par, a, b, c, e⟩)
        intro v hv
        obtain ⟨⟨w, par⟩, hw, rfl⟩ := List.mem_map.1 hv
        rw [h2, (lookup_eq_some hself _ _).2 hw, deletes_append, deletes_single]
        by_cases hwd : w = d
        · simp [hwd, hq]
        · simp only [hwd, if_false, false_and, or_false]
          rw [← hp w hv]
          split
          · rw [Option.map_eq_none_iff]
          · exact Iff.rfl
    · refine step (Consensus.insert st d q) ?_ (by rw [mergeLoop, if_neg (by simpa using hq)]) (fun h => absurd h hq)
      intro v hv
      rw [lookup_insert, deletes_append, deletes_single]
      by_cases hvd : v = d
      · subst hvd
        simp only [if_true, reduceCtorEq, true_and, hq, or_false, false_iff]
        rintro ⟨x, hx, _⟩
        exact hnot ⟨x, hx⟩
      · simp only [hvd, if_false, false_and, or_false]
        exact hp v hv

/-- **C59**, the crash: merging crashes in exactly those orders in which a version is deleted before one that it could be
upgraded to, and returns a table in all others. -/
theorem C59_crash_iff_partial (self cfg : Protocols) (hself : (self.map (·.1)).Nodup) (hcfg : (cfg.map (·.1)).Nodup) :
    (merge self cfg = .panic ↔ DeletedTooSoon self cfg) ∧
    (¬ DeletedTooSoon self cfg → ∃ r, merge self cfg = .ok r) := by
  have h0 : Present self [] self := by
    intro v hv
    have : (lookup self v).isSome = true := (lookup_isSome self v).2 hv
    constructor
    · intro h; rw [h] at this; cases this
    · rintro ⟨p, hp, _⟩; simp at hp
  have key : ∀ pre d q post, cfg = pre ++ (d, q) :: post → q.approvedUpgrades = [] → ∀ v par, (v, par) ∈ self →
      contains par.approvedUpgrades d = true → deletes pre v → DeletedTooSoon self cfg := by
    rintro pre d q post rfl hq v par hv hc ⟨p, hp, he⟩
    obtain ⟨a, b, rfl⟩ := List.append_of_mem hp
    exact ⟨a, v, p, b, d, q, post, par, by simp, he, hq, hv, hc⟩
  rcases mergeLoop_crash self cfg hself hcfg cfg [] self rfl h0 with ⟨h, pre, d, q, post, h1, h2, v, par, h3, _, h5, h6⟩ | ⟨h, hno⟩
  · have hs := key pre d q post h1 h2 v par h3 h5 (by simpa using h6)
    exact ⟨⟨fun _ => hs, fun _ => h⟩, fun hn => absurd hs hn⟩
  · refine ⟨⟨fun hp => ?_, ?_⟩, fun _ => h⟩
    · obtain ⟨r, hr⟩ := h
      rw [merge, hr] at hp
      cases hp
    · rintro ⟨pre, v, p, mid, d, q, post, par, rfl, hp, hq, hv, hc⟩
      refine absurd ?_ (hno (pre ++ (v, p) :: mid) d q post (by simp) hq v par hv ?_ hc)
      · exact ⟨p, by simp, hp⟩
      · rintro rfl
        simp only [List.map_append, List.map_cons, List.nodup_append, List.nodup_cons] at hcfg
        exact hcfg.2.1.1 (by simp)

/-! ## The result -/

/-- The loop does what is documented whenever the overrides are separate from what depends on the deleted versions. -/
theorem mergeLoop_separate (self cfg : Protocols) (hself : (self.map (·.1)).Nodup) (hcfg : (cfg.map (·.1)).Nodup)
    (hind : Separate self cfg) : ∀ (todo done st : Protocols), done ++ todo = cfg → LoopInv self done st →
      ∃ r, mergeLoop self todo st = .ok r ∧ LoopInv self cfg r
  | [], done, st, he, hi => ⟨st, rfl, by rw [← he, List.append_nil]; exact hi⟩
  | (d, params) :: todo, done, st, he, hi => by
    have hin : (d, params) ∈ cfg := by rw [← he]; simp
    have hnd : lookup done d = none := by
      cases hl : lookup done d with
      | none => rfl
      | some x =>
        have := (lookup_isSome done d).1 (by rw [hl]; rfl)
        rw [← he, List.map_append, List.nodup_append] at hcfg
        exact absurd rfl (hcfg.2.2 d this d (by simp))
    have hlookup : ∀ v, lookup (done ++ [(d, params)]) v = if v = d then some params else lookup done v := by
      intro v
      rw [lookup, List.find?_append]
      by_cases hv : v = d
      · subst hv
        have : List.find? (fun e => decide (e.1 = v)) done = none := by
          rw [lookup] at hnd
          simpa using hnd
        simp [this]
      · rw [if_neg hv]
        simp only [List.find?_cons, List.find?_nil, decide_eq_false (fun e => hv (Eq.symm e))]
        rw [Option.or_none]; rfl
    rw [mergeLoop]
    by_cases hempty : params.approvedUpgrades = []
    · rw [if_pos (by rw [hempty]; rfl)]
      have hdel : deletes cfg d := ⟨params, hin, hempty⟩
      have hdl : deletedList (done ++ [(d, params)]) = deletedList done ++ [d] := by
        simp [deletedList, List.filter_append, hempty]
      -- overrides of entries with an upgrade to `d` do not have it
      have hout : ∀ v p x, lookup self v = some p → v ≠ d → contains p.approvedUpgrades d = true →
          lookup done v = some x → x.approvedUpgrades ≠ [] ∧ contains x.approvedUpgrades d = false := by
        intro v p x hp hvd hc hl
        have hx : (v, x) ∈ cfg := by
          have hnd' : (done.map (·.1)).Nodup := by
            rw [← he, List.map_append, List.nodup_append] at hcfg; exact hcfg.1
          rw [← he]
          exact List.mem_append_left _ ((lookup_eq_some hnd' v x).1 hl)
        exact hind d hdel v p ((lookup_eq_some hself v p).1 hp) hvd hc x hx
      obtain ⟨st', h1, h2⟩ := deleteVersion_spec d self st hself (by
        intro v p hp hvd hc
        have hp' := (lookup_eq_some hself v p).2 hp
        rw [hi v]
        cases hl : lookup done v with
        | none => rw [hp']; simp
        | some x => simp [(hout v p x hp' hvd hc hl).1])
      rw [h1, Res.ok_bind]
      refine mergeLoop_separate self cfg hself hcfg hind todo (done ++ [(d, params)]) st' (by rw [← he]; simp) ?_
      intro v
      rw [h2 v, hlookup v, hi v]
      by_cases hv : v = d
      · subst hv
        simp only [hnd, if_true, hempty]
        cases hl : lookup self v <;> simp
      · simp only [if_neg hv]
        cases hl : lookup self v with
        | none => rfl
        | some p =>
          simp only [Option.map_some]
          by_cases hc : contains p.approvedUpgrades d = true
          · rw [if_pos hc]
            cases hd : lookup done v with
            | some x =>
              obtain ⟨h3, h4⟩ := hout v p x hl hv hc hd
              simp only [if_neg h3, Option.map_some, remove_not_contains x d h4]
            | none =>
              simp only [Option.map_some, Option.some.injEq, dropUpgrades, hdl, remove, List.filter_filter]
              congr 1
              apply List.filter_congr
              intro e _
              simp only [List.mem_append, List.mem_singleton, ne_eq, decide_not, not_or, Bool.decide_and]
              rw [Bool.and_comm]
          · rw [if_neg hc]
            cases hd : lookup done v with
            | some q => rfl
            | none =>
              have hr := remove_not_contains p d (by simpa using hc)
              simp only [Option.some.injEq, dropUpgrades, hdl]
              congr 1
              conv => lhs; rw [← hr, remove, List.filter_filter]
              apply List.filter_congr
              intro e _
              simp only [List.mem_append, List.mem_singleton, ne_eq, decide_not, not_or, Bool.decide_and]
    · rw [if_neg (by simpa using hempty)]
      refine mergeLoop_separate self cfg hself hcfg hind todo (done ++ [(d, params)]) _ (by rw [← he]; simp) ?_
      have hdl : deletedList (done ++ [(d, params)]) = deletedList done := by
        simp [deletedList, List.filter_append, hempty]
      intro v
      rw [lookup_insert, hlookup v]
      by_cases hv : v = d
      · simp [hv, hempty]
      · simp only [if_neg hv, hdl, hi v]

theorem merge_separate (self cfg : Protocols) (hself : (self.map (·.1)).Nodup)
    (hcfg : (cfg.map (·.1)).Nodup) (hind : Separate self cfg) :
    ∃ r, merge self cfg = .ok r ∧ MergeSpec self cfg r := by
  obtain ⟨r, h1, h2⟩ := mergeLoop_separate self cfg hself hcfg hind cfg [] self rfl (by
    intro v
    simp only [lookup_nil]
    cases lookup self v with
    | none => rfl
    | some p =>
      simp only [dropUpgrades, deletedList, List.filter_nil, List.map_nil, List.not_mem_nil, not_false_eq_true,
        decide_true, Option.map_some]
      rw [List.filter_eq_self.2 (fun _ _ => rfl)])
  refine ⟨r, h1, ?_⟩
  intro v
  refine ⟨?_, ?_, ?_⟩
  · intro p hp hne
    rw [h2 v, (lookup_eq_some hcfg v p).2 hp]
    simp [hne]
  · rintro ⟨p, hp, he⟩
    rw [h2 v, (lookup_eq_some hcfg v p).2 hp]
    simp [he]
  · intro hnot
    have hl : lookup cfg v = none := by
      cases hl : lookup cfg v with
      | none => rfl
      | some p => exact absurd ((lookup_eq_some hcfg v p).1 hl) (hnot p)
    rw [h2 v, hl]
    refine ⟨fun e => by rw [e]; rfl, ?_⟩
    intro p hp
    rw [hp]
    refine ⟨_, rfl, ?_⟩
    intro w n
    simp [List.mem_filter, mem_deletedList]

/-! ## The other override sets -/

/-- Once an upgrade has been taken from an entry, it does not come back unless the entry is overridden. -/
theorem deleteVersion_keeps (x v d : Version) : ∀ (self st r : Protocols),
    (∀ q, lookup st v = some q → contains q.approvedUpgrades d = false) → deleteVersion x self st = .ok r →
    ∀ q, lookup r v = some q → contains q.approvedUpgrades d = false
  | [], st, r, h, hr => by injection hr with hr; exact hr ▸ h
  | (k, par) :: rest, st, r, h, hr => by
    rw [deleteVersion] at hr
    split at hr
    · refine deleteVersion_keeps x v d rest _ r ?_ hr
      intro q hq
      rw [lookup_remove] at hq
      split at hq
      · cases hq
      · exact h q hq
    · split at hr
      · obtain ⟨st', h1, h2⟩ := Res.bind_eq_ok.1 hr
        refine deleteVersion_keeps x v d rest _ r ?_ h2
        rw [removeUpgrade] at h1
        cases hl : lookup st k with
        | none => rw [hl] at h1; cases h1
        | some p =>
          rw [hl] at h1
          injection h1 with h1
          subst h1
          intro q hq
          rw [lookup_insert] at hq
          split at hq
          · rename_i hvk
            injection hq with hq
            subst hq
            have := h p (hvk ▸ hl)
            rw [contains] at this ⊢
            rw [lookup_remove]
            split
            · rfl
            · exact this
          · exact h q hq
      · exact deleteVersion_keeps x v d rest st r h hr

theorem mergeLoop_keeps (v d : Version) (self : Protocols) : ∀ (todo st r : Protocols), (∀ q, (v, q) ∉ todo) →
    (∀ q, lookup st v = some q → contains q.approvedUpgrades d = false) → mergeLoop self todo st = .ok r →
    ∀ q, lookup r v = some q → contains q.approvedUpgrades d = false
  | [], st, r, _, h, hr => by injection hr with hr; exact hr ▸ h
  | (k, p) :: todo, st, r, hv, h, hr => by
    have hv' : ∀ q, (v, q) ∉ todo := fun q hq => hv q (List.mem_cons_of_mem _ hq)
    have hvk : v ≠ k := by rintro rfl; exact hv p (by simp)
    rw [mergeLoop] at hr
    split at hr
    · obtain ⟨st', h1, h2⟩ := Res.bind_eq_ok.1 hr
      exact mergeLoop_keeps v d self todo st' r hv' (deleteVersion_keeps k v d self st st' h h1) h2
    · refine mergeLoop_keeps v d self todo _ r hv' ?_ hr
      intro q hq
      rw [lookup_insert, if_neg hvk] at hq
      exact h q hq

/-- Two entries can be brought to the front. -/
theorem two_first {a b : Version × Params} {cfg : Protocols} (ha : a ∈ cfg) (hb : b ∈ cfg) (hab : a ≠ b) :
    ∃ rest, cfg.Perm (a :: b :: rest) := by
  obtain ⟨l1, l2, rfl⟩ := List.append_of_mem ha
  have hb' : b ∈ l1 ++ l2 := by
    simp only [List.mem_append, List.mem_cons] at hb ⊢
    rcases hb with h | h | h
    · exact Or.inl h
    · exact absurd h.symm hab
    · exact Or.inr h
  obtain ⟨m1, m2, hm⟩ := List.append_of_mem hb'
  refine ⟨m1 ++ m2, List.perm_middle.trans ?_⟩
  rw [hm]
  exact List.Perm.cons _ List.perm_middle

theorem MergeSpec.perm {self cfg cfg' r : Protocols} (h : cfg.Perm cfg') (hs : MergeSpec self cfg r) : MergeSpec self cfg' r := by
  have hd : ∀ v, deletes cfg' v ↔ deletes cfg v := fun v => by simp only [deletes, h.mem_iff]
  intro v
  obtain ⟨h1, h2, h3⟩ := hs v
  refine ⟨fun p hp => h1 p (h.mem_iff.2 hp), fun hx => h2 ((hd v).1 hx), fun hno => ?_⟩
  obtain ⟨h4, h5⟩ := h3 (fun p hp => hno p (h.mem_iff.1 hp))
  refine ⟨h4, fun p hp => ?_⟩
  obtain ⟨us, h6, h7⟩ := h5 p hp
  exact ⟨us, h6, fun w n => by rw [h7, hd]⟩

/-- **C59**, exactly: an override set is merged as documented in every iteration order if and only if no version with an upgrade
to a deleted one is deleted too or overridden by an entry that still offers this upgrade. -/
theorem C59_exact_partial (self cfg : Protocols) (hself : (self.map (·.1)).Nodup) (hcfg : (cfg.map (·.1)).Nodup) :
    (∀ cfg', cfg.Perm cfg' → ∃ r, merge self cfg' = .ok r ∧ MergeSpec self cfg r) ↔ Separate self cfg := by
  constructor
  · intro hall d ⟨e, hd, he⟩ v par hv hvd hc q hq
    obtain ⟨rest, hp⟩ := two_first hq hd (fun h => hvd (by injection h))
    obtain ⟨r, hr, hspec⟩ := hall _ hp
    have hcfg' : (((v, q) :: (d, e) :: rest).map (·.1)).Nodup := (hp.map _).nodup_iff.1 hcfg
    have hne : q.approvedUpgrades ≠ [] := by
      intro h
      have := ((C59_crash_iff_partial self _ hself hcfg').1).2
        ⟨[], v, q, [], d, e, rest, par, rfl, h, he, hv, hc⟩
      rw [hr] at this
      cases this
    refine ⟨hne, ?_⟩
    have hres := (hspec v).1 q hq hne
    rw [merge, mergeLoop, if_neg (by simpa using hne), mergeLoop, if_pos (by rw [he]; rfl)] at hr
    obtain ⟨st, h1, h2⟩ := Res.bind_eq_ok.1 hr
    refine mergeLoop_keeps v d self rest st r ?_ ?_ h2 q hres
    · intro x hx
      simp only [List.map_cons, List.nodup_cons, List.mem_cons, not_or] at hcfg'
      exact hcfg'.1.2 (List.mem_map.2 ⟨_, hx, rfl⟩)
    · obtain ⟨st', g1, g2⟩ := deleteVersion_spec d self (Consensus.insert self v q) hself (fun w p hw _ _ => by
        rw [lookup_insert]
        split
        · simp
        · rw [(lookup_eq_some hself w p).2 hw]; simp)
      rw [h1] at g1
      injection g1 with g1
      subst g1
      intro x hx
      rw [g2, (lookup_eq_some hself v par).2 hv] at hx
      simp only [if_neg hvd, if_pos hc, lookup_insert, if_true, Option.map_some, Option.some.injEq] at hx
      subst hx
      rw [contains, lookup_remove, if_pos rfl]
      rfl
  · intro hsep cfg' hp
    obtain ⟨r, h1, h2⟩ := merge_separate self cfg' hself ((hp.map _).nodup_iff.1 hcfg) (by
      rintro d ⟨e, hd, he⟩ v par hv hvd hc q hq
      exact hsep d ⟨e, hp.mem_iff.2 hd, he⟩ v par hv hvd hc q (hp.mem_iff.2 hq))
    exact ⟨r, h1, h2.perm hp.symm⟩

/-- Deleting `v8` and overriding `v7` by an entry with another upgrade is fine in both orders. -/
example : Separate builtin [deletion .v8, (.v7, { v7Base with approvedUpgrades := [(.v9, 0)] })] := by
  rintro d ⟨e, hd, he⟩ v par hv hvd hc q hq
  have hd' : d = .v8 := by
    simp only [deletion, List.mem_cons, Prod.mk.injEq, List.not_mem_nil, or_false] at hd
    rcases hd with h | h
    · exact h.1
    · rw [h.2] at he; cases he
  subst hd'
  simp only [deletion, List.mem_cons, Prod.mk.injEq, List.not_mem_nil, or_false] at hq
  rcases hq with h | h
  · exact absurd h.1 hvd
  · rw [h.2]
    exact ⟨by simp, by decide⟩

/-- A case of `C59_crash_iff_partial`: a file that only adds a version. -/
example (p : Params) (h : p.approvedUpgrades ≠ []) : ∃ r, merge builtin [(.v7, p)] = .ok r :=
  (C59_crash_iff_partial builtin [(.v7, p)] (by decide +kernel) (by simp)).2 fun ⟨pre, v, q, mid, d, q', post, par, he, hq, _⟩ => by
    have : (v, q) ∈ [(Version.v7, p)] := by rw [he]; simp
    simp only [List.mem_singleton, Prod.mk.injEq] at this
    exact h (this.2 ▸ hq)

/-- A case of `C59_crash_iff_partial`: version 7 is deleted, and then version 8, to which it upgrades. -/
example : merge builtin [deletion .v7, deletion .v8] = .panic := by
  refine ((C59_crash_iff_partial builtin _ (by decide +kernel) (by simp [deletion])).1).2 ?_
  obtain ⟨par, h1, h2⟩ : ∃ par, (Version.v7, par) ∈ builtin ∧ contains par.approvedUpgrades .v8 = true := by
    have h0 : (builtin.any fun e => e.1 == .v7 && contains e.2.approvedUpgrades .v8) = true := by decide +kernel
    obtain ⟨⟨v, par⟩, h1, h2⟩ := List.any_eq_true.1 h0
    simp only [Bool.and_eq_true, beq_iff_eq] at h2
    exact ⟨par, h2.1 ▸ h1, h2.2⟩
  exact ⟨[], .v7, _, [], .v8, _, [], par, rfl, rfl, rfl, h1, h2⟩

end Verif.Props
