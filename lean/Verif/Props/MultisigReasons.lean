import Verif.Props.Multisig
/-!
# Refused multisignature operations, and what `assemble` builds (C148, C149)
-/

namespace Verif.Props
open Verif Verif.Multisig

/-! ## C148: the reason given -/

/-- Why no address is derived. -/
def AddrReason (v t : UInt8) (pks : List Bytes) : MultisigError → Prop
  | .unknownVersion w => w = v ∧ v ≠ 1
  | .invalidThreshold => v = 1 ∧ (t.toNat = 0 ∨ pks.length < t.toNat)
  | _ => False

/-- C148: deriving an address is refused exactly for the reason reported. -/
theorem C148_address (H : Bytes → Bytes) (v t : UInt8) (pks : List Bytes) (e : MultisigError) :
    fromPks H v t pks = .err e ↔ AddrReason v t pks e := by
  obtain ⟨h1, h2, h3⟩ := C19_address_total H v t pks
  by_cases hv : v = 1
  · by_cases ht : t.toNat = 0 ∨ pks.length < t.toNat
    · rw [h3 hv ht]
      constructor
      · intro h; injection h with h; subst h; exact ⟨hv, ht⟩
      · intro h
        cases e with
        | unknownVersion w => exact absurd hv h.2
        | invalidThreshold => rfl
        | _ => exact h.elim
    · rw [h1 ⟨hv, by omega, by omega⟩]
      constructor
      · intro h; cases h
      · intro h
        cases e with
        | unknownVersion w => exact absurd hv h.2
        | invalidThreshold => exact absurd h.2 ht
        | _ => exact h.elim
  · rw [h2 hv]
    constructor
    · intro h; injection h with h; subst h; exact ⟨rfl, hv⟩
    · intro h
      cases e with
      | unknownVersion w => rw [h.1]
      | invalidThreshold => exact absurd h.1 hv
      | _ => exact h.elim

example : fromPks id 1 3 [[1], [2]] = .err .invalidThreshold :=
  (C148_address id 1 3 _ _).2 ⟨rfl, Or.inr (by decide)⟩

/-- Why `sign` refuses: no such address, another address, or a key that is not in the list. -/
def SignReason (H : Bytes → Bytes) (addr : Bytes) (v t : UInt8) (pks : List Bytes) (k : Bytes) :
    MultisigError → Prop
  | .invalidAddress => (∀ e, ¬ AddrReason v t pks e) ∧ addr ≠ H (specAddrString v t pks)
  | .keyNotExists => (∀ e, ¬ AddrReason v t pks e) ∧ addr = H (specAddrString v t pks) ∧ k ∉ pks
  | e => AddrReason v t pks e

/-- C148: signing is refused exactly for the reason reported. -/
theorem C148_sign (H : Bytes → Bytes) (S : Scheme) (addr msg : Bytes) (v t : UInt8) (pks : List Bytes)
    (sk : S.Sk) (k : Bytes) (e : MultisigError) :
    sign H S addr msg v t pks sk k = .err e ↔ SignReason H addr v t pks k e := by
  have hadr := C148_address H v t pks
  obtain ⟨h1, h2, h3⟩ := C19_address_total H v t pks
  by_cases hv : v = 1
  · rw [sign, if_neg (by simpa using hv)]
    by_cases ht : t.toNat = 0 ∨ pks.length < t.toNat
    · rw [h3 hv ht, Res.err_bind]
      have hno : ¬ ∀ e, ¬ AddrReason v t pks e := fun h => h .invalidThreshold ⟨hv, ht⟩
      constructor
      · intro h; injection h with h; subst h; exact ⟨hv, ht⟩
      · intro h
        cases e with
        | unknownVersion w => exact absurd hv h.2
        | invalidThreshold => rfl
        | invalidAddress => exact absurd h.1 hno
        | keyNotExists => exact absurd h.1 hno
        | _ => exact h.elim
    · have hok := h1 ⟨hv, by omega, by omega⟩
      have hno : ∀ e, ¬ AddrReason v t pks e := fun e h => by
        rw [(hadr e).2 h] at hok; cases hok
      rw [hok, Res.ok_bind]
      by_cases ha : addr = H (specAddrString v t pks)
      · rw [if_neg (by simpa using ha)]
        by_cases hk : k ∈ pks
        · rw [if_neg (by simpa using hk)]
          constructor
          · intro h; cases h
          · intro h
            cases e with
            | unknownVersion w => exact absurd h (hno (.unknownVersion w))
            | invalidThreshold => exact absurd h (hno .invalidThreshold)
            | invalidAddress => exact absurd ha h.2
            | keyNotExists => exact absurd hk h.2.2
            | _ => exact h.elim
        · rw [if_pos (by simpa using hk)]
          constructor
          · intro h; injection h with h; subst h; exact ⟨hno, ha, hk⟩
          · intro h
            cases e with
            | unknownVersion w => exact absurd h (hno (.unknownVersion w))
            | invalidThreshold => exact absurd h (hno .invalidThreshold)
            | invalidAddress => exact absurd ha h.2
            | keyNotExists => rfl
            | _ => exact h.elim
      · rw [if_pos ha]
        constructor
        · intro h; injection h with h; subst h; exact ⟨hno, ha⟩
        · intro h
          cases e with
          | unknownVersion w => exact absurd h (hno (.unknownVersion w))
          | invalidThreshold => exact absurd h (hno .invalidThreshold)
          | invalidAddress => rfl
          | keyNotExists => exact absurd h.2.1 ha
          | _ => exact h.elim
  · rw [sign, if_pos hv]
    have hno : ¬ ∀ e, ¬ AddrReason v t pks e := fun h => h (.unknownVersion v) ⟨rfl, hv⟩
    constructor
    · intro h; injection h with h; subst h; exact ⟨rfl, hv⟩
    · intro h
      cases e with
      | unknownVersion w => rw [h.1]
      | invalidThreshold => exact absurd h.1 hv
      | invalidAddress => exact absurd h.1 hno
      | keyNotExists => exact absurd h.1 hno
      | _ => exact h.elim

example : sign id toyScheme (specAddrString 1 1 [[1], [2]]) [9] 1 1 [[1], [2]] [3] [3] = .err .keyNotExists :=
  (C148_sign id toyScheme _ _ 1 1 [[1], [2]] _ [3] _).2
    ⟨fun e h => by cases e <;> simp [AddrReason] at h, rfl, by decide⟩

/-- Two multisignatures are not of the same group of keys, told by the error. -/
def Disagree (a b : Msig) : MultisigError → Prop
  | .thresholdsDontMatch x y => x = a.threshold ∧ y = b.threshold ∧ x ≠ y
  | .versionsDontMatch x y => x = a.version ∧ y = b.version ∧ x ≠ y
  | .keysDontMatch => a.subsigs.map Subsig.key ≠ b.subsigs.map Subsig.key
  | _ => False

theorem Disagree.shape {a b : Msig} {e : MultisigError} (h : Disagree a b e) : ¬ SameShape a b := by
  rintro ⟨h1, h2, h3⟩
  cases e with
  | thresholdsDontMatch x y => obtain ⟨rfl, rfl, hne⟩ := h; exact hne h1
  | versionsDontMatch x y => obtain ⟨rfl, rfl, hne⟩ := h; exact hne h2
  | keysDontMatch => exact h h3
  | _ => exact h.elim

theorem matches_reason (m o : Msig) (n : Nat) (hn : n = m.subsigs.length ∨ n = o.subsigs.length)
    (e : MultisigError) (h : m.matches o n = .err e) : Disagree m o e := by
  rw [Msig.matches] at h
  by_cases h1 : m.threshold = o.threshold
  · rw [if_neg (by simpa using h1)] at h
    by_cases h2 : m.version = o.version
    · rw [if_neg (by simpa using h2)] at h
      by_cases h3 : m.subsigs.length = o.subsigs.length
      · rw [if_neg (by simpa using h3)] at h
        have hn' : n = m.subsigs.length := by omega
        rw [hn', keysMatch_full _ _ h3] at h
        by_cases hk : m.subsigs.map Subsig.key = o.subsigs.map Subsig.key
        · rw [if_pos hk] at h; cases h
        · rw [if_neg hk] at h; injection h with h; subst h; exact hk
      · rw [if_pos h3] at h; injection h with h; subst h
        intro he; apply h3
        have := congrArg List.length he
        simpa using this
    · rw [if_pos h2] at h; injection h with h; subst h; exact ⟨rfl, rfl, h2⟩
  · rw [if_pos h1] at h; injection h with h; subst h; exact ⟨rfl, rfl, h1⟩

/-- C148: a refused merge: the first disagreement of the two, with both values; or some position carries
two different signatures. Conversely these are refused, and with such a reason. -/
theorem C148_merge (a b : Msig) :
    (∀ e, a.merge b = .err e → Disagree a b e ∨ (e = .invalidDuplicates ∧ SameShape a b ∧
      ∃ i x y, sigAt a i = some x ∧ sigAt b i = some y ∧ x ≠ y)) ∧
    (¬ SameShape a b → ∃ e, a.merge b = .err e ∧ Disagree a b e) ∧
    (SameShape a b → (∃ i x y, sigAt a i = some x ∧ sigAt b i = some y ∧ x ≠ y) →
      a.merge b = .err .invalidDuplicates) := by
  obtain ⟨s1, s2, s3⟩ := C18_merge_spec a b
  have key : ∀ e, a.merge b = .err e → Disagree a b e ∨ (e = .invalidDuplicates ∧ SameShape a b ∧
      ∃ i x y, sigAt a i = some x ∧ sigAt b i = some y ∧ x ≠ y) := by
    intro e h
    by_cases hsh : SameShape a b
    · right
      rcases s3 hsh with he | ⟨m, hm⟩
      · rw [he] at h; injection h with h; subst h
        refine ⟨rfl, hsh, ?_⟩
        have hlen : b.subsigs.length = a.subsigs.length := by
          have := congrArg List.length hsh.2.2
          simpa using this.symm
        rw [Msig.merge, (matches_eq a b).2 hsh, Res.ok_bind] at he
        rcases mergeLoop_eq b.subsigs a.subsigs 0 (by omega) with ⟨_, hl⟩ | ⟨⟨k, x, y, hx, hy, hna⟩, _⟩
        · rw [hl] at he; cases he
        · rw [Nat.zero_add] at hy
          cases hxs : x.sig with
          | none => exact absurd (by simp [Agree, hxs]) hna
          | some p =>
            cases hys : y.sig with
            | none => exact absurd (by simp [Agree, hys]) hna
            | some q =>
              refine ⟨k, p, q, by simp [sigAt, hx, hxs], by simp [sigAt, hy, hys], ?_⟩
              intro e
              exact hna (by simp [Agree, hxs, hys, e])
      · rw [hm] at h; cases h
    · left
      cases hm : a.matches b a.subsigs.length with
      | ok u => exact absurd ((matches_eq a b).1 hm) hsh
      | panic => exact absurd hm (matches_no_panic a b)
      | err e' =>
        rw [Msig.merge, hm, Res.err_bind] at h
        injection h with h; subst h
        exact matches_reason a b _ (Or.inl rfl) _ hm
  refine ⟨key, ?_, ?_⟩
  · intro hsh
    cases hm : a.merge b with
    | ok m => exact absurd ((s1 m).1 hm).1 hsh
    | panic => exact absurd hm s2
    | err e =>
      rcases key e hm with h | ⟨_, h, _⟩
      · exact ⟨e, rfl, h⟩
      · exact absurd h hsh
  · rintro hsh ⟨i, x, y, hx, hy, hne⟩
    rcases s3 hsh with he | ⟨m, hm⟩
    · exact he
    · exact absurd (((s1 m).1 hm).2.1 i x y hx hy) hne

example : (⟨1, 2, [⟨[1], some [7]⟩]⟩ : Msig).merge ⟨1, 3, [⟨[1], none⟩]⟩ = .err (.thresholdsDontMatch 2 3) := by
  decide

theorem checkAll_reason (m : Msig) (n : Nat) : ∀ (us : List Msig) (e : MultisigError),
    (n = m.subsigs.length ∨ ∃ u us', us = u :: us' ∧ n = u.subsigs.length) →
    checkAll m n us = .err e → ∃ u ∈ us, Disagree m u e
  | [], e, _, h => by cases h
  | u :: us, e, hn, h => by
    have hn' : n = m.subsigs.length ∨ n = u.subsigs.length := by
      rcases hn with hn | ⟨u', us', he, hn⟩
      · exact Or.inl hn
      · injection he with h1 h2; subst h1; exact Or.inr hn
    rw [checkAll] at h
    cases hm : m.matches u n with
    | err e' =>
      rw [hm, Res.err_bind] at h; injection h with h; subst h
      exact ⟨u, by simp, matches_reason m u n hn' _ hm⟩
    | panic => rw [hm] at h; cases h
    | ok x =>
      rw [hm, Res.ok_bind] at h
      have hlen : n = m.subsigs.length := by
        rcases hn' with hn' | hn'
        · exact hn'
        · rw [Msig.matches] at hm
          split at hm
          · cases hm
          · split at hm
            · cases hm
            · split at hm
              · cases hm
              · rename_i h3
                have : m.subsigs.length = u.subsigs.length := by simpa using h3
                omega
      obtain ⟨w, hw, hd⟩ := checkAll_reason m n us e (Or.inl hlen) h
      exact ⟨w, by simp [hw], hd⟩

theorem addAll_conflict : ∀ (us : List Msig) (ss : List Subsig) (e : MultisigError),
    (∀ u ∈ us, u.subsigs.map Subsig.key = ss.map Subsig.key) → (addAll us ss).2 = .err e →
    e = .invalidDuplicates ∧ ∃ u ∈ us, ∃ i x y, sigAt u i = some x ∧ x ≠ y ∧
      ((ss[i]?).bind Subsig.sig = some y ∨ ∃ w ∈ us, sigAt w i = some y)
  | [], ss, e, _, h => by cases h
  | u :: us, ss, e, hk, h => by
    have hlen : u.subsigs.length = ss.length := by
      have := congrArg List.length (hk u (by simp))
      simpa using this
    have hk1 := addOne_keys u.subsigs ss 0
    have hg1 := addOne_get u.subsigs ss 0
    have hp1 := addOne_no_panic u.subsigs ss 0 (by omega)
    rw [addAll] at h
    generalize hone : addOne u.subsigs 0 ss = r at hk1 hg1 hp1 h
    obtain ⟨ss1, r1⟩ := r
    simp only at hk1 hg1 hp1 h
    rcases hp1 with ⟨hr, _⟩ | ⟨hr, k, s, o, hs, ho, hna⟩
    · subst hr
      simp only at h
      obtain ⟨he, v, hv, i, x, y, hx, hne, hy⟩ :=
        addAll_conflict us ss1 e (fun w hw => by rw [hk w (by simp [hw]), hk1]) h
      refine ⟨he, v, by simp [hv], i, x, y, hx, hne, ?_⟩
      rcases hy with hy | ⟨w, hw, hy⟩
      · obtain ⟨z, hz, hzs⟩ := Option.bind_eq_some_iff.1 hy
        obtain ⟨s0, hs0, hor⟩ := hg1 i z hz
        rcases hor with rfl | ⟨_, o, ho, _, rfl⟩
        · left; rw [hs0]; exact hzs
        · right
          rw [Nat.zero_add] at ho
          exact ⟨u, by simp, by simp only [sigAt, ho, Option.bind_some]; exact hzs⟩
      · exact Or.inr ⟨w, by simp [hw], hy⟩
    · subst hr
      simp only at h
      injection h with h
      rw [Nat.zero_add] at ho
      refine ⟨h.symm, u, by simp, k, ?_⟩
      cases hss : s.sig with
      | none => exact absurd (by simp [Agree, hss]) hna
      | some y =>
        cases hos : o.sig with
        | none => exact absurd (by simp [Agree, hos]) hna
        | some x =>
          refine ⟨x, y, by simp [sigAt, ho, hos], ?_, Or.inl (by simp [hs, hss])⟩
          intro he
          exact hna (by simp [Agree, hss, hos, he])

/-- C148: a refused `add_sigs`: nothing was given; or one of those given is not of the same group, with the
values that differ; or two of the signatures involved for one position are different. Conversely each of
these is refused, and two signatures for one position are called duplicates. -/
theorem C148_add (m : Msig) (us : List Msig) :
    (∀ e, (m.addSigs us).2 = .err e → (us = [] ∧ e = .invalidNumberOfSignatures) ∨
      (∃ u ∈ us, Disagree m u e) ∨
      (e = .invalidDuplicates ∧ ∃ u ∈ us, ∃ w ∈ m :: us, ∃ i x y, sigAt u i = some x ∧ sigAt w i = some y ∧
        x ≠ y)) ∧
    (us = [] → (m.addSigs us).2 = .err .invalidNumberOfSignatures) ∧
    ((∃ u ∈ us, ¬ SameShape m u) → ∃ e, (m.addSigs us).2 = .err e ∧ ∃ u ∈ us, Disagree m u e) ∧
    ((∀ u ∈ us, SameShape m u) → (∃ u ∈ us, ∃ w ∈ m :: us, ∃ i x y, sigAt u i = some x ∧
      sigAt w i = some y ∧ x ≠ y) → (m.addSigs us).2 = .err .invalidDuplicates) := by
  have key : ∀ e, (m.addSigs us).2 = .err e → (us = [] ∧ e = .invalidNumberOfSignatures) ∨
      (∃ u ∈ us, Disagree m u e) ∨ ((∀ u ∈ us, SameShape m u) ∧
      e = .invalidDuplicates ∧ ∃ u ∈ us, ∃ w ∈ m :: us, ∃ i x y, sigAt u i = some x ∧ sigAt w i = some y ∧
        x ≠ y) := by
    intro e h
    match us with
    | [] => injection h with h; exact Or.inl ⟨rfl, h.symm⟩
    | u :: us =>
      right
      rw [Msig.addSigs] at h
      cases hc : checkAll m u.subsigs.length (u :: us) with
      | err e' =>
        rw [hc] at h; injection h with h; subst h
        exact Or.inl (checkAll_reason m _ (u :: us) _ (Or.inr ⟨u, us, rfl, rfl⟩) hc)
      | panic => rw [hc] at h; cases h
      | ok x =>
        rw [hc] at h
        simp only at h
        right
        have hall : ∀ w ∈ u :: us, SameShape m w := by
          rcases addSigs_shape m (u :: us) with ⟨⟨e', he⟩, _⟩ | ⟨_, hall, _⟩
          · by_contra hno
            have hlen : u.subsigs.length = m.subsigs.length := by
              rw [checkAll] at hc
              cases hm : m.matches u u.subsigs.length with
              | err e' => rw [hm] at hc; cases hc
              | panic => rw [hm] at hc; cases hc
              | ok _ =>
                rw [Msig.matches] at hm
                split at hm
                · cases hm
                · split at hm
                  · cases hm
                  · split at hm
                    · cases hm
                    · rename_i h3
                      exact (by simpa using h3 : m.subsigs.length = u.subsigs.length).symm
            rw [hlen] at hc
            exact hno ((checkAll_ok m (u :: us)).1 hc)
          · exact hall
        obtain ⟨he, v, hv, i, x, y, hx, hne, hy⟩ :=
          addAll_conflict (u :: us) m.subsigs e (fun w hw => (hall w hw).2.2.symm) h
        refine ⟨hall, he, v, hv, ?_⟩
        rcases hy with hy | ⟨w, hw, hy⟩
        · exact ⟨m, by simp, i, x, y, hx, hy, hne⟩
        · exact ⟨w, List.mem_cons_of_mem _ hw, i, x, y, hx, hy, hne⟩
  have hnp := (C71_add_sigs_any_outcome_partial m us).1
  refine ⟨?_, ?_, ?_, ?_⟩
  · intro e h
    rcases key e h with h | h | ⟨_, h⟩
    · exact Or.inl h
    · exact Or.inr (Or.inl h)
    · exact Or.inr (Or.inr h)
  · rintro rfl; rfl
  · rintro ⟨u, hu, hno⟩
    cases hr : (m.addSigs us).2 with
    | ok x => exact absurd ((C71_add_sigs_success m us hr).2.1 u hu) hno
    | panic => exact absurd hr hnp
    | err e =>
      refine ⟨e, rfl, ?_⟩
      rcases key e hr with ⟨h, _⟩ | h | ⟨h, _⟩
      · rw [h] at hu; cases hu
      · exact h
      · exact absurd (h u hu) hno
  · rintro hall ⟨u, hu, w, hw, i, x, y, hx, hy, hne⟩
    cases hr : (m.addSigs us).2 with
    | ok _ =>
      obtain ⟨_, _, _, hs⟩ := C71_add_sigs_success m us hr
      have h1 := (hs i x).2 ⟨u, List.mem_cons_of_mem _ hu, hx⟩
      have h2 := (hs i y).2 ⟨w, hw, hy⟩
      rw [h1] at h2; injection h2 with h2; exact absurd h2 hne
    | panic => exact absurd hr hnp
    | err e =>
      rcases key e hr with ⟨h, _⟩ | ⟨v, hv, hd⟩ | ⟨_, h, _⟩
      · rw [h] at hu; cases hu
      · exact absurd (hall v hv) hd.shape
      · rw [h]

example : ((⟨1, 1, [⟨[1], none⟩]⟩ : Msig).addSigs [⟨1, 1, [⟨[1], some [5]⟩]⟩, ⟨1, 1, [⟨[1], some [6]⟩]⟩]).2 =
    .err .invalidDuplicates := by decide

/-- Why verification is refused. The last clause lists what is reported as a wrong number of signatures. -/
def VerifyReason (H : Bytes → Bytes) (m : Msig) (addr : Bytes) : MultisigError → Prop
  | .invalidAddress => addr ≠ H (specAddrString m.version m.threshold (m.subsigs.map Subsig.key))
  | .invalidNumberOfSignatures =>
      (m.subsigs.filter fun s => s.sig.isSome).length < m.threshold.toNat ∨ m.subsigs.length = 0 ∨
      255 < m.subsigs.length ∨ m.subsigs[0]? = some ⟨1 :: List.replicate 31 0, none⟩
  | e => AddrReason m.version m.threshold (m.subsigs.map Subsig.key) e

/-- C148, the part that holds for verification: the reason reported is one of those of the specification;
a wrong number of signatures is fewer than the threshold, none or more than 255 entries, or (missing from
the English claim) a blank first entry. -/
theorem C148_verify_partial (H : Bytes → Bytes) (S : Scheme) (m : Msig) (msg addr : Bytes)
    (e : MultisigError) (h : m.verify H S msg addr = .err e) : VerifyReason H m addr e := by
  rcases batchVerify_eq H m msg addr with ⟨hw, hb, hne⟩ | ⟨hw, e', hb⟩
  · rcases verify_cases H S m msg addr with ⟨_, _, hv⟩ | ⟨_, _, hv⟩ | ⟨hn, _⟩
    · rw [hv] at h; cases h
    · rw [hv] at h; cases h
    · exact absurd hw hn
  · have he : e' = e := by
      rw [Msig.verify, hb, Res.err_bind] at h; injection h
    subst he
    have hle : (m.subsigs.filter fun s => s.sig.isSome).length ≤ m.subsigs.length := List.length_filter_le _ _
    rw [Msig.batchVerify] at hb
    by_cases h1 : m.subsigs.isEmpty ∨ m.subsigs[0]? = some Subsig.default
    · rw [if_pos h1] at hb; injection hb with hb; subst hb
      rcases h1 with h1 | h1
      · exact Or.inr (Or.inl (by simpa using h1))
      · exact Or.inr (Or.inr (Or.inr h1))
    · rw [if_neg h1] at hb
      have htot := C19_address_total H m.version m.threshold (m.subsigs.map Subsig.key)
      rw [fromSubsigs] at hb
      by_cases hv : m.version = 1
      · by_cases ht : m.threshold.toNat = 0 ∨ (m.subsigs.map Subsig.key).length < m.threshold.toNat
        · rw [htot.2.2 hv ht, Res.err_bind] at hb; injection hb with hb; subst hb
          exact ⟨hv, ht⟩
        · have ht' : m.threshold.toNat ≤ m.subsigs.length := by
            rw [List.length_map] at ht; omega
          rw [htot.1 ⟨hv, by omega, by rw [List.length_map]; omega⟩, Res.ok_bind] at hb
          by_cases ha : addr = H (specAddrString m.version m.threshold (m.subsigs.map Subsig.key))
          · rw [if_neg (by simpa using ha)] at hb
            by_cases hs : m.subsigs.length > 255
            · rw [if_pos hs] at hb; injection hb with hb; subst hb
              exact Or.inr (Or.inr (Or.inl hs))
            · rw [if_neg hs, if_neg (by omega)] at hb
              by_cases hn : (m.subsigs.filter fun s => s.sig.isSome).length < m.threshold.toNat
              · rw [if_pos hn] at hb; injection hb with hb; subst hb
                exact Or.inl hn
              · refine absurd ⟨hv, by omega, by omega, by omega, ha, fun e => h1 (Or.inr e)⟩ hw
          · rw [if_pos ha] at hb; injection hb with hb; subst hb
            exact ha
      · rw [htot.2.1 hv, Res.err_bind] at hb; injection hb with hb; subst hb
        exact ⟨rfl, hv⟩

example : (⟨1, 1, [⟨[5], none⟩]⟩ : Msig).verify id toyScheme [9] (specAddrString 1 1 [[5]]) =
    .err .invalidNumberOfSignatures := by decide +kernel

/-- C148 fails for verification: of the two keys of a group with threshold one the second has signed
validly, and the address is right; if the first key is the library's default one the number of signatures
is reported to be wrong. (For every hash, scheme, key holder and message.) -/
theorem C148_verify_violated (H : Bytes → Bytes) (S : Scheme)
    (hS : ∀ sk m, S.verify (S.pub sk) m (S.sign sk m) = true) (sk : S.Sk) (msg : Bytes) :
    ∃ m : Msig, ∃ addr, addr = H (specAddrString m.version m.threshold (m.subsigs.map Subsig.key)) ∧
      m.version = 1 ∧ 1 ≤ m.threshold.toNat ∧ m.subsigs.length ≤ 255 ∧
      m.threshold.toNat ≤ (m.subsigs.filter fun s => s.sig.isSome).length ∧
      (∀ s ∈ m.subsigs, ∀ sg, s.sig = some sg → S.verify s.key msg sg = true) ∧
      m.verify H S msg addr = .err .invalidNumberOfSignatures := by
  refine ⟨⟨1, 1, [⟨1 :: List.replicate 31 0, none⟩, ⟨S.pub sk, some (S.sign sk msg)⟩]⟩, _, rfl, rfl,
    Nat.le_refl 1, by simp, by simp, ?_, ?_⟩
  · intro s hs sg hsg
    simp only [List.mem_cons, List.not_mem_nil, or_false] at hs
    rcases hs with rfl | rfl
    · cases hsg
    · injection hsg with hsg; subst hsg; exact hS sk msg
  · have hd : ([⟨1 :: List.replicate 31 0, none⟩, ⟨S.pub sk, some (S.sign sk msg)⟩] : List Subsig)[0]? =
        some Subsig.default := rfl
    rw [Msig.verify, Msig.batchVerify, if_pos (Or.inr hd)]; rfl

/-! ## C149: assembling -/

theorem assembleCheck_cases (first : Msig) : ∀ (us : List Msig),
    (assembleCheck first us = .ok () ∧ ∀ u ∈ us, SameShape first u) ∨
    (∃ e, assembleCheck first us = .err e ∧ ∃ u ∈ us, ¬ SameShape first u ∧ (Disagree first u e ∨
      (e = .invalidNumberOfSignatures ∧ first.subsigs.length ≠ u.subsigs.length)))
  | [] => Or.inl ⟨rfl, by simp⟩
  | u :: us => by
    rw [assembleCheck]
    by_cases h1 : first.threshold = u.threshold
    · rw [if_neg (by simpa using h1)]
      by_cases h2 : first.version = u.version
      · rw [if_neg (by simpa using h2)]
        by_cases h3 : first.subsigs.length = u.subsigs.length
        · rw [if_neg (by simpa using h3), keysMatch_full _ _ h3]
          by_cases hk : first.subsigs.map Subsig.key = u.subsigs.map Subsig.key
          · rw [if_pos hk, Res.ok_bind]
            rcases assembleCheck_cases first us with ⟨h, hall⟩ | ⟨e, h, w, hw, hd⟩
            · refine Or.inl ⟨h, ?_⟩
              intro w hw
              rcases List.mem_cons.1 hw with rfl | hw
              · exact ⟨h1, h2, hk⟩
              · exact hall w hw
            · exact Or.inr ⟨e, h, w, by simp [hw], hd⟩
          · rw [if_neg hk, Res.err_bind]
            exact Or.inr ⟨_, rfl, u, by simp, fun h => hk h.2.2, Or.inl hk⟩
        · rw [if_pos h3]
          refine Or.inr ⟨_, rfl, u, by simp, ?_, Or.inr ⟨rfl, h3⟩⟩
          intro h
          have := congrArg List.length h.2.2
          exact h3 (by simpa using this)
      · rw [if_pos h2]
        exact Or.inr ⟨_, rfl, u, by simp, fun h => h2 h.2.1, Or.inl ⟨rfl, rfl, h2⟩⟩
    · rw [if_pos h1]
      exact Or.inr ⟨_, rfl, u, by simp, fun h => h1 h.1, Or.inl ⟨rfl, rfl, h1⟩⟩

theorem over_get (u ms : List Subsig) (hk : u.map Subsig.key = ms.map Subsig.key) (i : Nat) :
    ((List.zipWith over u ms)[i]?).bind Subsig.sig =
      ((u[i]?).bind Subsig.sig).or ((ms[i]?).bind Subsig.sig) := by
  rw [List.getElem?_zipWith]
  have h : (u.map Subsig.key)[i]? = (ms.map Subsig.key)[i]? := by rw [hk]
  rw [List.getElem?_map, List.getElem?_map] at h
  cases hu : u[i]? with
  | none =>
    rw [hu] at h
    cases hm : ms[i]? with
    | none => rfl
    | some m => rw [hm] at h; cases h
  | some s =>
    rw [hu] at h
    cases hm : ms[i]? with
    | none => rw [hm] at h; cases h
    | some m =>
      simp only [Option.bind_some]
      rw [over]
      cases hs : s.sig with
      | none => simp
      | some x => simp

/-- The last of the multisignatures that has a signature at `i`. -/
def LastAt (us : List Msig) (i : Nat) (s : Bytes) : Prop :=
  ∃ pre u post, us = pre ++ u :: post ∧ sigAt u i = some s ∧ ∀ w ∈ post, sigAt w i = none

theorem lastAt_cons (u : Msig) (us : List Msig) (i : Nat) (s : Bytes) :
    LastAt (u :: us) i s ↔ LastAt us i s ∨ (sigAt u i = some s ∧ ∀ w ∈ us, sigAt w i = none) := by
  constructor
  · rintro ⟨pre, w, post, he, hw, hp⟩
    cases pre with
    | nil => injection he with h1 h2; subst h1; subst h2; exact Or.inr ⟨hw, hp⟩
    | cons p pre => injection he with h1 h2; exact Or.inl ⟨pre, w, post, h2, hw, hp⟩
  · rintro (⟨pre, w, post, he, hw, hp⟩ | ⟨hw, hp⟩)
    · exact ⟨u :: pre, w, post, by rw [he]; rfl, hw, hp⟩
    · exact ⟨[], u, us, rfl, hw, hp⟩

theorem overlayAll_last : ∀ (us : List Msig) (ms : List Subsig),
    (∀ u ∈ us, u.subsigs.map Subsig.key = ms.map Subsig.key) →
    ∃ out, overlayAll us ms = .ok out ∧ out.map Subsig.key = ms.map Subsig.key ∧
      ∀ i s, (out[i]?).bind Subsig.sig = some s ↔
        LastAt us i s ∨ ((ms[i]?).bind Subsig.sig = some s ∧ ∀ w ∈ us, sigAt w i = none)
  | [], ms, _ => ⟨ms, rfl, rfl, fun i s => by simp [LastAt]⟩
  | u :: us, ms, hk => by
    have hu := hk u (by simp)
    have hlen : u.subsigs.length = ms.length := by
      have := congrArg List.length hu
      simpa using this
    have hks := over_keys u.subsigs ms hlen
    obtain ⟨out, ho, hko, hs⟩ := overlayAll_last us (List.zipWith over u.subsigs ms)
      (fun w hw => by rw [hks]; exact hk w (by simp [hw]))
    refine ⟨out, ?_, hko.trans hks, ?_⟩
    · rw [overlayAll, overlay_eq u.subsigs ms 0 (by omega), Res.ok_bind, List.drop_zero, ho]
    · intro i s
      rw [hs, over_get _ _ hu, lastAt_cons]
      change _ ∨ ((sigAt u i).or _ = some s ∧ _) ↔ _
      cases hsu : sigAt u i with
      | none =>
        simp only [Option.none_or, reduceCtorEq, false_and, or_false, List.mem_cons, forall_eq_or_imp, hsu,
          true_and]
      | some x =>
        simp only [Option.some_or, List.mem_cons, forall_eq_or_imp, hsu, reduceCtorEq, false_and, and_false,
          or_false]

/-- C149: `assemble` never panics; it succeeds exactly when two or more multisignatures of one group of
keys are given, and builds the one of that group that has at each position the last signature given for
it. -/
theorem C149_assemble (us : List Msig) :
    assemble us ≠ .panic ∧
    (∀ m, assemble us = .ok m ↔ 2 ≤ us.length ∧ (∀ u ∈ us, SameShape m u) ∧
      ∀ i s, sigAt m i = some s ↔ LastAt us i s) := by
  match us with
  | [] => exact ⟨by simp [assemble], fun m => ⟨fun h => (by cases h), fun h => (by simp at h)⟩⟩
  | [u] => exact ⟨by simp [assemble], fun m => ⟨fun h => (by cases h), fun h => (by simp at h)⟩⟩
  | u :: v :: rest =>
    rw [assemble]
    rcases assembleCheck_cases u (v :: rest) with ⟨hc, hall⟩ | ⟨e, hc, w, hw, hns, _⟩
    · rw [hc, Res.ok_bind]
      have hks : (u.subsigs.map fun s => (⟨s.key, none⟩ : Subsig)).map Subsig.key = u.subsigs.map Subsig.key := by
        rw [List.map_map]; rfl
      have hall' : ∀ w ∈ u :: v :: rest, SameShape u w := by
        intro w hw
        rcases List.mem_cons.1 hw with rfl | hw
        · exact ⟨rfl, rfl, rfl⟩
        · exact hall w hw
      obtain ⟨out, ho, hk, hs⟩ := overlayAll_last (u :: v :: rest) (u.subsigs.map fun s => ⟨s.key, none⟩)
        (fun w hw => by rw [hks]; exact (hall' w hw).2.2.symm)
      have hnone : ∀ i : Nat, ((u.subsigs.map fun s => (⟨s.key, none⟩ : Subsig))[i]?).bind Subsig.sig = none := by
        intro i
        rw [List.getElem?_map]
        cases u.subsigs[i]? <;> rfl
      have hs' : ∀ i s, sigAt (⟨u.version, u.threshold, out⟩ : Msig) i = some s ↔
          LastAt (u :: v :: rest) i s := by
        intro i s
        have := hs i s
        rw [hnone] at this
        simpa [sigAt] using this
      have hsh : SameShape ⟨u.version, u.threshold, out⟩ u := ⟨rfl, rfl, hk.trans hks⟩
      rw [ho, Res.ok_bind]
      refine ⟨by simp, fun m => ⟨?_, ?_⟩⟩
      · intro h
        injection h with h; subst h
        refine ⟨by simp, fun w hw => ?_, hs'⟩
        obtain ⟨a, b, c⟩ := hall' w hw
        exact ⟨hsh.1.trans a, hsh.2.1.trans b, hsh.2.2.trans c⟩
      · rintro ⟨_, hm, hms⟩
        have : (⟨u.version, u.threshold, out⟩ : Msig) = m := by
          obtain ⟨a, b, c⟩ := hm u (by simp)
          refine msig_ext ⟨hsh.1.trans a.symm, hsh.2.1.trans b.symm, hsh.2.2.trans c.symm⟩ ?_
          intro i
          ext s
          rw [hs' i s, hms i s]
        rw [← this]; rfl
    · rw [hc, Res.err_bind]
      refine ⟨by simp, fun m => ⟨fun h => (by cases h), ?_⟩⟩
      rintro ⟨_, hm, _⟩
      obtain ⟨a, b, c⟩ := hm u (by simp)
      obtain ⟨a', b', c'⟩ := hm w (List.mem_cons_of_mem _ hw)
      exact absurd ⟨a.symm.trans a', b.symm.trans b', c.symm.trans c'⟩ hns

example : assemble [⟨1, 2, [⟨[1], some [7]⟩, ⟨[2], none⟩, ⟨[3], none⟩]⟩,
      ⟨1, 2, [⟨[1], some [8]⟩, ⟨[2], none⟩, ⟨[3], some [9]⟩]⟩] =
    .ok ⟨1, 2, [⟨[1], some [8]⟩, ⟨[2], none⟩, ⟨[3], some [9]⟩]⟩ := by decide

/-- C148: a refused `assemble`: fewer than two were given, or one of them is not of the group of the first,
with the values that differ; lists of keys of different lengths are reported as a number of signatures. -/
theorem C148_assemble (us : List Msig) (e : MultisigError) (h : assemble us = .err e) :
    (us.length < 2 ∧ e = .invalidNumberOfSignatures) ∨
    ∃ f rest, us = f :: rest ∧ ∃ u ∈ rest, ¬ SameShape f u ∧ (Disagree f u e ∨
      (e = .invalidNumberOfSignatures ∧ f.subsigs.length ≠ u.subsigs.length)) := by
  match us with
  | [] => injection h with h; exact Or.inl ⟨by simp, h.symm⟩
  | [u] => injection h with h; exact Or.inl ⟨by simp, h.symm⟩
  | u :: v :: rest =>
    right
    rcases assembleCheck_cases u (v :: rest) with ⟨hc, hall⟩ | ⟨e', hc, w, hw, hd⟩
    · have hok : ∃ m, assemble (u :: v :: rest) = .ok m := by
        rw [assemble, hc, Res.ok_bind]
        obtain ⟨out, ho, _⟩ := overlayAll_last (u :: v :: rest) (u.subsigs.map fun s => ⟨s.key, none⟩)
          (fun w hw => by
            rw [List.map_map]
            rcases List.mem_cons.1 hw with rfl | hw
            · rfl
            · exact (hall w hw).2.2.symm)
        rw [ho]; exact ⟨_, rfl⟩
      obtain ⟨m, hm⟩ := hok
      rw [hm] at h; cases h
    · rw [assemble, hc, Res.err_bind] at h
      injection h with h; subst h
      exact ⟨u, v :: rest, rfl, w, hw, hd⟩

/-- C149: where no two of them have different signatures for one position, `assemble` keeps every signature
and agrees with merging: the result does not depend on the order. -/
theorem C149_keeps (us : List Msig) (m : Msig) (h : assemble us = .ok m)
    (hc : ∀ u ∈ us, ∀ w ∈ us, ∀ i x y, sigAt u i = some x → sigAt w i = some y → x = y) :
    (∀ i s, sigAt m i = some s ↔ ∃ u ∈ us, sigAt u i = some s) ∧
    ∀ vs, vs.Perm us → assemble vs = .ok m := by
  obtain ⟨hlen, hsh, hs⟩ := ((C149_assemble us).2 m).1 h
  have exists_last : ∀ (vs : List Msig) i s, (∀ u ∈ vs, ∀ x, sigAt u i = some x → x = s) →
      ((∃ u ∈ vs, sigAt u i = some s) ↔ LastAt vs i s) := by
    intro vs i s
    induction vs with
    | nil => intro _; simp [LastAt]
    | cons v vs ih =>
      intro hx
      rw [lastAt_cons, ← ih (fun u hu => hx u (by simp [hu]))]
      constructor
      · rintro ⟨u, hu, hus⟩
        by_cases he : ∃ w ∈ vs, sigAt w i = some s
        · exact Or.inl he
        · right
          rcases List.mem_cons.1 hu with rfl | hu
          · refine ⟨hus, fun w hw => ?_⟩
            cases hw' : sigAt w i with
            | none => rfl
            | some x => exact absurd ⟨w, hw, by rw [hw', hx w (by simp [hw]) x hw']⟩ he
          · exact absurd ⟨u, hu, hus⟩ he
      · rintro (⟨u, hu, hus⟩ | ⟨hus, _⟩)
        · exact ⟨u, by simp [hu], hus⟩
        · exact ⟨v, by simp, hus⟩
  have all : ∀ (vs : List Msig), (∀ v ∈ vs, v ∈ us) → ∀ i s, LastAt vs i s ↔ ∃ u ∈ vs, sigAt u i = some s := by
    intro vs hv i s
    by_cases he : ∃ u ∈ vs, sigAt u i = some s
    · obtain ⟨u, hu, hus⟩ := he
      exact (exists_last vs i s (fun w hw x hx => hc w (hv w hw) u (hv u hu) i x s hx hus)).symm
    · refine ⟨fun hl => ?_, fun h => absurd h he⟩
      obtain ⟨pre, u, post, rfl, hus, _⟩ := hl
      exact ⟨u, by simp, hus⟩
  refine ⟨fun i s => (hs i s).trans (all us (fun _ h => h) i s), fun vs hp => ?_⟩
  refine ((C149_assemble vs).2 m).2 ⟨by rw [hp.length_eq]; exact hlen, fun u hu => hsh u (hp.mem_iff.1 hu), ?_⟩
  intro i s
  rw [hs i s, all us (fun _ h => h), all vs (fun v hv => hp.mem_iff.1 hv)]
  exact ⟨fun ⟨u, hu, h⟩ => ⟨u, hp.mem_iff.2 hu, h⟩, fun ⟨u, hu, h⟩ => ⟨u, hp.mem_iff.1 hu, h⟩⟩

example : ∃ m, assemble [⟨1, 2, [⟨[1], some [7]⟩, ⟨[2], none⟩]⟩, ⟨1, 2, [⟨[1], none⟩, ⟨[2], some [9]⟩]⟩] = .ok m ∧
    assemble [⟨1, 2, [⟨[1], none⟩, ⟨[2], some [9]⟩]⟩, ⟨1, 2, [⟨[1], some [7]⟩, ⟨[2], none⟩]⟩] = .ok m := by
  exact ⟨⟨1, 2, [⟨[1], some [7]⟩, ⟨[2], some [9]⟩]⟩, by decide, by decide⟩

/-- C149 fails in general: of two different signatures for one position `assemble` drops the first without
a word, where `merge` and `add_sigs` refuse. A valid signature given first is lost to an invalid one given
later, and the result is rejected although enough valid signatures were handed in. (For every hash, every
scheme that accepts its own signatures, and every wrong signature `bad`.) -/
theorem C149_conflict_violated (H : Bytes → Bytes) (S : Scheme)
    (hS : ∀ sk m, S.verify (S.pub sk) m (S.sign sk m) = true) (sk : S.Sk) (msg bad : Bytes)
    (hbad : S.verify (S.pub sk) msg bad = false) :
    ∃ a b m : Msig, ∃ addr, a.verify H S msg addr = .ok true ∧ SameShape a b ∧
      assemble [a, b] = .ok m ∧ m.verify H S msg addr = .ok false ∧
      assemble [b, a] = .ok a ∧ a.merge b = .err .invalidDuplicates ∧
      (a.addSigs [b]).2 = .err .invalidDuplicates := by
  have hne : S.sign sk msg ≠ bad := fun h => by rw [← h, hS] at hbad; cases hbad
  refine ⟨⟨1, 1, [⟨S.pub sk, some (S.sign sk msg)⟩]⟩, ⟨1, 1, [⟨S.pub sk, some bad⟩]⟩,
    ⟨1, 1, [⟨S.pub sk, some bad⟩]⟩, H (specAddrString 1 1 [S.pub sk]), ?_, ⟨rfl, rfl, rfl⟩, ?_, ?_, ?_, ?_, ?_⟩
  · rw [C16_accept_iff]
    refine ⟨⟨rfl, Nat.le_refl 1, by simp, by simp, rfl, by simp⟩, ?_⟩
    intro s hs sg hsg
    simp only [List.mem_cons, List.not_mem_nil, or_false] at hs
    subst hs; injection hsg with hsg; subst hsg; exact hS sk msg
  · simp [assemble, assembleCheck, keysMatch, overlayAll, overlay]
  · rw [(C16_reject H S _ msg _).2.1]
    exact ⟨⟨rfl, Nat.le_refl 1, by simp, by simp, rfl, by simp⟩, _, List.mem_singleton.2 rfl, bad, rfl, hbad⟩
  · simp [assemble, assembleCheck, keysMatch, overlayAll, overlay]
  · exact (C148_merge _ _).2.2 ⟨rfl, rfl, rfl⟩ ⟨0, _, _, rfl, rfl, hne⟩
  · refine (C148_add _ _).2.2.2 ?_ ⟨_, List.mem_singleton.2 rfl, _, List.mem_cons_self, 0, bad, _, rfl, rfl,
      hne.symm⟩
    intro u hu
    rw [List.mem_singleton.1 hu]
    exact ⟨rfl, rfl, rfl⟩

/-! ## C17: the one exception -/

theorem sign_eq_partial {H : Bytes → Bytes} {S : Scheme} {addr msg : Bytes} {v t : UInt8} {pks : List Bytes}
    {sk : S.Sk} {u : Msig} (h : sign H S addr msg v t pks sk (S.pub sk) = .ok u) :
    u = partialSig S msg v t pks sk ∧ S.pub sk ∈ pks := by
  have h0 := h
  rw [sign] at h
  split at h
  · cases h
  · cases hf : fromPks H v t pks with
    | ok a =>
      rw [hf, Res.ok_bind] at h
      split at h
      · cases h
      · rename_i hne
        have hadr : addr = a := Classical.not_not.1 hne
        split at h
        · cases h
        · rename_i hk
          have hk : S.pub sk ∈ pks := by simpa using hk
          rw [sign_ok H S addr msg v t pks sk (by rw [hf, hadr]) hk] at h0
          injection h0 with h0
          exact ⟨h0.symm, hk⟩
    | err e => rw [hf] at h; cases h
    | panic => rw [hf] at h; cases h

/-- C17, the exception: when the first key of the group is the blank one (`1 0 … 0`) and its holder is not among the
signers, what they assemble is never accepted, however many of them sign. -/
theorem C17_blank_first (H : Bytes → Bytes) (S : Scheme) (msg : Bytes) (v t : UInt8) (pks : List Bytes) (addr : Bytes)
    (hfirst : pks[0]? = some (1 :: List.replicate 31 0)) (signers : List S.Sk)
    (hno : ∀ sk ∈ signers, S.pub sk ≠ 1 :: List.replicate 31 0) (us : List Msig) (m : Msig)
    (hus : List.Forall₂ (fun sk u => sign H S addr msg v t pks sk (S.pub sk) = .ok u) signers us)
    (hm : assemble us = .ok m) : m.verify H S msg addr ≠ .ok true := by
  have hparts : ∀ u ∈ us, sigAt u 0 = none ∧ u.subsigs.map Subsig.key = pks := by
    clear hm
    induction hus with
    | nil => intro u hu; cases hu
    | @cons sk u sks us h _ ih =>
      intro w hw
      rcases List.mem_cons.1 hw with rfl | hw
      · obtain ⟨rfl, hmem⟩ := sign_eq_partial h
        refine ⟨?_, partial_keys S msg v t pks sk⟩
        simp only [sigAt, partialSig, List.getElem?_map, hfirst, Option.map_some, Option.bind_some]
        rw [if_neg (hno sk (by simp))]
      · exact ih (fun x hx => hno x (by simp [hx])) w hw
  obtain ⟨hlen, hshape, hsig⟩ := ((C149_assemble us).2 m).1 hm
  have h0 : sigAt m 0 = none := by
    cases hs : sigAt m 0 with
    | none => rfl
    | some s =>
      obtain ⟨pre, u, post, he, hu, _⟩ := (hsig 0 s).1 hs
      rw [(hparts u (by rw [he]; simp)).1] at hu; cases hu
  obtain ⟨u, hu⟩ : ∃ u, u ∈ us := by
    cases us with
    | nil => simp at hlen
    | cons u _ => exact ⟨u, by simp⟩
  have hk : m.subsigs.map Subsig.key = pks := (hshape u hu).2.2.trans (hparts u hu).2
  intro hv
  obtain ⟨hw, _⟩ := (C16_accept_iff H S m msg addr).1 hv
  apply hw.first
  rw [← hk, List.getElem?_map] at hfirst
  cases hx : m.subsigs[0]? with
  | none => rw [hx] at hfirst; cases hfirst
  | some x =>
    rw [hx] at hfirst
    rw [sigAt, hx] at h0
    obtain ⟨k, sg⟩ := x
    simp only [Option.map_some, Option.some.injEq, Option.bind_some] at hfirst h0
    rw [hfirst, h0]

theorem toyScheme_correct (sk : toyScheme.Sk) (m : Bytes) : toyScheme.verify (toyScheme.pub sk) m (toyScheme.sign sk m) = true := by
  simp [toyScheme]

/-- A case of `C148_verify_violated`. -/
example : ∃ m : Msig, ∃ addr, m.verify id toyScheme [9] addr = .err .invalidNumberOfSignatures ∧
    m.threshold.toNat ≤ (m.subsigs.filter fun s => s.sig.isSome).length := by
  obtain ⟨m, addr, _, _, _, _, h, _, h2⟩ := C148_verify_violated id toyScheme toyScheme_correct ([3] : Bytes) [9]
  exact ⟨m, addr, h2, h⟩

example : assemble [⟨1, 2, [⟨[1], some [7]⟩]⟩, ⟨1, 3, [⟨[1], none⟩]⟩] = .err (.thresholdsDontMatch 2 3) := by decide +kernel

/-- A case of `C148_assemble`: thresholds 2 and 3. -/
example (e : MultisigError) (h : assemble [⟨1, 2, [⟨[1], some [7]⟩]⟩, ⟨1, 3, [⟨[1], none⟩]⟩] = .err e) :
    e = .thresholdsDontMatch 2 3 := by
  rcases C148_assemble _ e h with ⟨h1, _⟩ | ⟨f, rest, he, u, hu, _, h2⟩
  · simp at h1
  · simp only [List.cons.injEq] at he
    obtain ⟨rfl, rfl⟩ := he
    simp only [List.mem_singleton] at hu
    subst hu
    rcases h2 with h2 | ⟨_, h2⟩
    · cases e <;> simp [Disagree] at h2
      · obtain ⟨rfl, rfl, _⟩ := h2; rfl
      · obtain ⟨rfl, rfl, h2⟩ := h2; exact absurd rfl h2
    · simp at h2

/-- A case of `C149_conflict_violated`: a valid and an invalid signature in one place. -/
example : ∃ a b m : Msig, ∃ addr, a.verify id toyScheme [9] addr = .ok true ∧ assemble [a, b] = .ok m ∧
    m.verify id toyScheme [9] addr = .ok false := by
  obtain ⟨a, b, m, addr, h1, _, h2, h3, _⟩ := C149_conflict_violated id toyScheme toyScheme_correct ([3] : Bytes) [9] [4] (by decide)
  exact ⟨a, b, m, addr, h1, h2, h3⟩

/-- A case of `C17_blank_first`: the blank key first, and two other keys that both sign. -/
example : ∃ us m, List.Forall₂ (fun sk u => sign id toyScheme (specAddrString 1 2 [1 :: List.replicate 31 0, [2], [3]]) [9] 1 2
      [1 :: List.replicate 31 0, [2], [3]] sk (toyScheme.pub sk) = .ok u) [([2] : Bytes), [3]] us ∧ assemble us = .ok m ∧
    m.verify id toyScheme [9] (specAddrString 1 2 [1 :: List.replicate 31 0, [2], [3]]) ≠ .ok true := by
  have h : List.Forall₂ (fun sk u => sign id toyScheme (specAddrString 1 2 [1 :: List.replicate 31 0, [2], [3]]) [9] 1 2
      [1 :: List.replicate 31 0, [2], [3]] sk (toyScheme.pub sk) = .ok u) [([2] : Bytes), [3]]
      [⟨1, 2, [⟨1 :: List.replicate 31 0, none⟩, ⟨[2], some [2, 9]⟩, ⟨[3], none⟩]⟩,
       ⟨1, 2, [⟨1 :: List.replicate 31 0, none⟩, ⟨[2], none⟩, ⟨[3], some [3, 9]⟩]⟩] :=
    .cons (by decide +kernel) (.cons (by decide +kernel) .nil)
  have hm : assemble [⟨1, 2, [⟨1 :: List.replicate 31 0, none⟩, ⟨[2], some [2, 9]⟩, ⟨[3], none⟩]⟩,
       ⟨1, 2, [⟨1 :: List.replicate 31 0, none⟩, ⟨[2], none⟩, ⟨[3], some [3, 9]⟩]⟩] =
       .ok ⟨1, 2, [⟨1 :: List.replicate 31 0, none⟩, ⟨[2], some [2, 9]⟩, ⟨[3], some [3, 9]⟩]⟩ := by decide +kernel
  refine ⟨_, _, h, hm, C17_blank_first id toyScheme [9] 1 2 _ _ rfl _ ?_ _ _ h hm⟩
  intro sk hk
  rcases List.mem_cons.1 hk with rfl | hk
  · simp [toyScheme]
  · rw [List.mem_singleton.1 hk]; simp [toyScheme]

end Verif.Props
