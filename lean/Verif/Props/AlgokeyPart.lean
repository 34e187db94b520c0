import Verif.Props.Algokey
/-!
# Participation key commands
-/

namespace Verif.Props
open Verif Verif.Account Verif.Algokey

/-! ## The square root in floating point -/

theorem sqrt_mul_four (n k : Nat) : Nat.sqrt n * 2 ^ k ≤ Nat.sqrt (n * 4 ^ k) := by
  rw [Nat.le_sqrt]
  calc Nat.sqrt n * 2 ^ k * (Nat.sqrt n * 2 ^ k) = (Nat.sqrt n * Nat.sqrt n) * (2 ^ k * 2 ^ k) := by ring
    _ = (Nat.sqrt n * Nat.sqrt n) * 4 ^ k := by rw [← Nat.mul_pow]
    _ ≤ n * 4 ^ k := Nat.mul_le_mul_right _ (Nat.sqrt_le n)

/-- The root is never below the whole root. -/
theorem sqrt_lower (n : Nat) : Nat.sqrt n ≤ f64SqrtU64 n := by
  simp only [f64SqrtU64]
  generalize 52 - Nat.log2 (Nat.sqrt n) = k
  have h := sqrt_mul_four n k
  rw [Nat.le_div_iff_mul_le (Nat.two_pow_pos k)]
  split <;> omega

/-- Below `2^52` rounding never reaches the next whole number. -/
theorem sqrt_exact (n : Nat) (h : n < 2 ^ 52) : f64SqrtU64 n = Nat.sqrt n := by
  refine Nat.le_antisymm ?_ (sqrt_lower n)
  have hs : Nat.sqrt n < 2 ^ 26 := by
    rw [Nat.sqrt_lt]; exact lt_of_lt_of_eq h (by norm_num)
  have hn : n + 1 ≤ (Nat.sqrt n + 1) * (Nat.sqrt n + 1) := Nat.lt_succ_sqrt n
  have hlog : Nat.log2 (Nat.sqrt n) ≤ 25 := by
    by_cases h0 : Nat.sqrt n = 0
    · rw [h0]; decide
    · have := (Nat.log2_lt h0).2 hs
      omega
  simp only [f64SqrtU64]
  have hk : 26 ≤ 52 - Nat.log2 (Nat.sqrt n) := by omega
  generalize 52 - Nat.log2 (Nat.sqrt n) = k at hk
  have hpk : 2 ^ 26 ≤ 2 ^ k := Nat.pow_le_pow_right (by omega) hk
  have h4 : 4 ^ k = 2 ^ k * 2 ^ k := by rw [← Nat.mul_pow]
  rw [Nat.div_le_iff_le_mul_add_pred (Nat.two_pow_pos k)]
  generalize hP : 2 ^ k = P at *
  generalize hS : Nat.sqrt n = s at *
  have hr := Nat.sqrt_le (n * 4 ^ k)
  generalize hR : Nat.sqrt (n * 4 ^ k) = r at *
  -- the next whole number in units of `2^-k`
  have hM : n * 4 ^ k + P * P ≤ ((s + 1) * P) * ((s + 1) * P) := by
    rw [h4]; nlinarith
  have hs1 : (s + 1) * P ≤ P * P := Nat.mul_le_mul_right _ (by omega)
  generalize hMd : (s + 1) * P = M at *
  have hMs : M = P * s + P := by rw [← hMd]; ring
  generalize hN : n * 4 ^ k = N at *
  have hlt : r < M := by
    by_contra hc
    have : M * M ≤ r * r := Nat.mul_le_mul (by omega) (by omega)
    omega
  split
  · rename_i hc
    have : r + 1 ≠ M := by
      intro e
      have e2 : M * M = r * r + r + (r + 1) := by rw [← e]; ring
      omega
    omega
  · omega

/-- For every `u64` the root is at most `2^32`. -/
theorem sqrt_upper (n : Nat) (h : n ≤ 2 ^ 64) : f64SqrtU64 n ≤ 2 ^ 32 := by
  simp only [f64SqrtU64]
  generalize 52 - Nat.log2 (Nat.sqrt n) = k
  have h4 : 4 ^ k = 2 ^ k * 2 ^ k := by rw [← Nat.mul_pow]
  have hN : n * 4 ^ k ≤ (2 ^ 32 * 2 ^ k) * (2 ^ 32 * 2 ^ k) := by
    rw [h4]
    calc n * (2 ^ k * 2 ^ k) ≤ 2 ^ 64 * (2 ^ k * 2 ^ k) := Nat.mul_le_mul_right _ h
      _ = _ := by ring
  have hr := Nat.sqrt_le (n * 4 ^ k)
  refine Nat.div_le_of_le_mul ?_
  rw [Nat.mul_comm (2 ^ k) (2 ^ 32)]
  generalize n * 4 ^ k = N at *
  generalize 2 ^ 32 * 2 ^ k = M at *
  generalize Nat.sqrt N = r at *
  have hle : r ≤ M := by
    by_contra hc
    have : (M + 1) * (M + 1) ≤ r * r := Nat.mul_le_mul (by omega) (by omega)
    nlinarith
  split
  · rename_i hc
    by_contra hc2
    have e : r = M := by omega
    subst e
    omega
  · exact hle

theorem ofU64_le (n : Nat) (h : n < u64Lim) : f64OfU64 n ≤ 2 ^ 64 := by
  simp only [f64OfU64]
  split
  · rw [u64Lim] at h; omega
  · rename_i h53
    have hn : n ≠ 0 := by intro e; subst e; simp at h53
    have hk : Nat.log2 n ≤ 63 := by
      have := (Nat.log2_lt hn).2 h
      omega
    have hk2 : 53 ≤ Nat.log2 n := by
      by_contra hc
      have := (Nat.log2_lt hn).1 (show Nat.log2 n < 53 by omega)
      omega
    obtain ⟨j, hj⟩ : ∃ j, Nat.log2 n - 52 + j = 64 := ⟨64 - (Nat.log2 n - 52), by omega⟩
    generalize Nat.log2 n - 52 = k at *
    have hp : 2 ^ 64 = 2 ^ j * 2 ^ k := by rw [← Nat.pow_add]; congr 1; omega
    have hq : n / 2 ^ k < 2 ^ j := by
      rw [Nat.div_lt_iff_lt_mul (Nat.two_pow_pos k), ← hp]; exact h
    rw [hp]
    split
    · exact Nat.mul_le_mul_right _ hq
    · exact Nat.mul_le_mul_right _ (by omega)

/-! ## C113: the default dilution -/

/-- **C113**: without a dilution the command uses one more than the whole square root of the length of the interval, for
intervals of fewer than `2^52` rounds; for every interval it is between 1 and `2^32 + 1`, and nothing overflows. -/
theorem C113_default_dilution (first last : Nat) (h : first ≤ last) (hl : last < u64Lim) :
    ∃ d, dilutionOf 0 first last = .ok d ∧ 1 ≤ d ∧ d ≤ 2 ^ 32 + 1 ∧
      (last - first < 2 ^ 52 → (d - 1) * (d - 1) ≤ last - first ∧ last - first < d * d) := by
  have hu := sqrt_upper _ (ofU64_le (last - first) (by omega))
  refine ⟨1 + f64SqrtU64 (f64OfU64 (last - first)), ?_, by omega, by omega, ?_⟩
  · rw [dilutionOf, if_pos rfl, subU, if_pos h, Res.ok_bind, addU64, if_pos]
    rw [u64Lim]; omega
  · intro hs
    rw [f64OfU64, if_pos (by omega), sqrt_exact _ hs, Nat.add_sub_cancel_left, Nat.add_comm]
    exact ⟨Nat.sqrt_le _, Nat.lt_succ_sqrt _⟩

/-- **C113**: a dilution that is given is used. -/
theorem C113_given_dilution (d first last : Nat) (hd : d ≠ 0) : dilutionOf d first last = .ok d := by
  rw [dilutionOf, if_neg hd]

/-- **C113**: with the default dilution the number of batch keys made is at most one more than the dilution, so both
are about the square root of the number of rounds. -/
theorem C113_batches (first last d : Nat) (h : first ≤ last) (hl : last < u64Lim) (hs : last - first < 2 ^ 52)
    (hd : dilutionOf 0 first last = .ok d) : last / d - first / d + 1 ≤ d + 1 := by
  obtain ⟨d', e, h1, _, h2⟩ := C113_default_dilution first last h hl
  rw [hd] at e
  injection e with e; subst e
  obtain ⟨_, h3⟩ := h2 hs
  have h4 : last < (first / d + 1) * d + d * d := by
    have h5 : first < (first / d + 1) * d := by rw [Nat.mul_comm]; exact Nat.lt_mul_div_succ first (by omega)
    omega
  have : last / d < first / d + 1 + d := by
    rw [Nat.div_lt_iff_lt_mul (by omega), Nat.add_mul (first / d + 1)]; exact h4
  omega

example : dilutionOf 0 1000 3000000 = .ok 1732 := by
  obtain ⟨d, h1, h2, _, h3⟩ := C113_default_dilution 1000 3000000 (by omega) (by rw [u64Lim]; omega)
  obtain ⟨h4, h5⟩ := h3 (by omega)
  have : d = 1732 := by
    have a : d < 1733 := by
      by_contra hc
      have : 1732 * 1732 ≤ (d - 1) * (d - 1) := Nat.mul_le_mul (by omega) (by omega)
      omega
    have b : 1731 < d := by
      by_contra hc
      have : d * d ≤ 1731 * 1731 := Nat.mul_le_mul (by omega) (by omega)
      omega
    omega
  rw [h1, this]

/-! ## C114: generating and looking -/

variable {G : Type} [AddCommGroup G] {S : Multisig.Scheme}

/-- What the command has made before it stores it. -/
theorem generated_facts {K : Keys S} (hK : GoodKeys K) (E : Ots.Enc) (C : Vrf.Curve G) (master : S.Sk)
    (eph : Nat → S.Sk) (seed a : Bytes) (first last d : Nat) (h : first ≤ last) (hd : 0 < d) (hl : last + 1 < u64Lim) :
    ∃ p, fillDb E K C master eph seed a first last d = .ok (p, persist K p) ∧ p.parent = a ∧
      p.vrf = Vrf.fromSeed C seed ∧ p.firstValid = first ∧ p.lastValid = last ∧ p.keyDilution = d ∧
      p.voting.verifier = S.pub master ∧ p.voting.firstBatch = first / d ∧ p.voting.firstOffset = 0 ∧
      (∀ r, first ≤ r → r ≤ last → CanSign E p r) ∧
      (last / d - first / d + 1 < u32Lim → SecretsOk K p.voting) := by
  obtain ⟨p, h1, h2, h3, h4, h5, h6, h7, h8, h9, h10⟩ := fillDb_ok E K C master eph seed a first last d h hd hl hK.correct
  obtain ⟨p', g1, _, _, _, _, g2⟩ := C27_covers_interval hK E C master eph seed a first last d h hd hl
  rw [h1] at g1
  injection g1 with g1
  have g1 := congrArg Prod.fst g1
  simp only at g1
  subst g1
  have hle : first / d ≤ last / d := Nat.div_le_div_right h
  have hself := Nat.div_le_self last d
  obtain ⟨l, l1, l2, l3⟩ := genLoop_spec S E master eph (first / d) (last / d - first / d + 1) 0 (by omega)
  have hv : p.voting = ⟨S.pub master, first / d, l, 0, [], Ots.defaultPk, Ots.zeroSig⟩ := by
    rw [Ots.generate, l1] at h9
    injection h9 with h9
    exact h9.symm
  refine ⟨p, h1, h2, h3, h4, h5, h6, h7, by rw [hv], by rw [hv], g2, ?_⟩
  intro hn
  rw [hv]
  refine ⟨⟨hK.pub_len _, hK.pub_ok _⟩, ?_, ⟨by rw [l2]; exact hn, ?_⟩, by simp [u64Lim], ⟨by simp [u32Lim], by simp⟩,
    ⟨rfl, hK.default_ok⟩, ⟨rfl, hK.zero_ok⟩⟩
  · show first / d < u64Lim
    omega
  · intro k hk
    obtain ⟨j, hj⟩ := List.getElem?_of_mem hk
    obtain ⟨_, e⟩ := l3 j k hj
    rw [e]
    exact ⟨hK.sign_len _ _, hK.sign_ok _ _⟩

/-- **C114**: for a valid parent address and an ordered interval the command completes, shows the arguments, and the keys
it made sign for every round of the interval. -/
theorem C114_generates {K : Keys S} (hK : GoodKeys K) (hash : Bytes → Bytes) (E : Ots.Enc) (C : Vrf.Curve G)
    (master : S.Sk) (eph : Nat → S.Sk) (seed : Bytes) (keyfile : Text) (first last dilution : Nat) (parent a : Bytes)
    (s : Store) (h : first ≤ last) (hl : last + 1 < u64Lim) (ha : Address.fromStr hash parent = .ok a) :
    ∃ p i, partGenerate hash E K C master eph seed keyfile first last dilution parent s =
        ⟨s.inserts (persist K p), some i, .done⟩ ∧
      i.parent = a ∧ i.first = first ∧ i.last = last ∧ (dilution ≠ 0 → i.dilution = dilution) ∧
      (dilution = 0 → dilutionOf 0 first last = .ok i.dilution) ∧ i.firstBatch = first / i.dilution ∧ i.firstOffset = 0 ∧
      i.voting = S.pub master ∧ i.vrf = (Vrf.fromSeed C seed).pub ∧
      p.parent = a ∧ ∀ r, first ≤ r → r ≤ last → CanSign E p r := by
  obtain ⟨d, hd, hd1⟩ : ∃ d, dilutionOf dilution first last = .ok d ∧ 0 < d := by
    by_cases h0 : dilution = 0
    · obtain ⟨d, e, h1, _⟩ := C113_default_dilution first last h (by omega)
      exact ⟨d, by rw [h0]; exact e, h1⟩
    · exact ⟨dilution, C113_given_dilution dilution first last h0, by omega⟩
  obtain ⟨p, h1, h2, h3, h4, h5, h6, h7, h8, h9, h10, _⟩ := generated_facts hK E C master eph seed a first last d h hd1 hl
  refine ⟨p, info p, ?_, h2, h4, h5, ?_, ?_, ?_, h9, h7, ?_, h2, h10⟩
  · rw [partGenerate, hd]
    simp only
    rw [ha]
    simp only
    rw [h1]
  · intro h0
    rw [C113_given_dilution dilution first last h0] at hd
    injection hd with hd
    rw [hd]; exact h6
  · intro h0
    rw [h0] at hd
    rw [hd]; exact congrArg _ h6.symm
  · rw [show (info p).dilution = d from h6]; exact h8
  · rw [← h3]; rfl

/-- **C114**: whenever the command completes, `part info` afterwards shows the same, whatever was stored before and
whatever file name is given to it. (The last hypothesis is that fewer than `2^32` batch keys are made.) -/
theorem C114_info_after_generate {K : Keys S} (hK : GoodKeys K) (hash : Bytes → Bytes) (E : Ots.Enc) (C : Vrf.Curve G)
    (hC : GoodCurve C) (hh : ∀ b, (hash b).length = 32)
    (master : S.Sk) (eph : Nat → S.Sk) (seed : Bytes) (hseed : seed.length = 32) (keyfile keyfile' : Text)
    (first last dilution : Nat) (hdil : dilution < u64Lim) (parent : Bytes) (s s' : Store) (i : Info) (hl : last + 1 < u64Lim)
    (h : partGenerate hash E K C master eph seed keyfile first last dilution parent s = ⟨s', some i, .done⟩)
    (hn : last / i.dilution - first / i.dilution + 1 < u32Lim) :
    partInfo K keyfile' s' = ⟨s', some i, .done⟩ := by
  cases hd : dilutionOf dilution first last with
  | panic => rw [partGenerate, hd] at h; simp at h
  | err e => rw [partGenerate, hd] at h; simp at h
  | ok d =>
    cases ha : Address.fromStr hash parent with
    | panic => rw [partGenerate, hd] at h; simp [ha] at h
    | err e => rw [partGenerate, hd] at h; simp [ha] at h
    | ok a =>
      have hd1 : d < u64Lim ∧ (first ≤ last → 0 < d) := by
        by_cases h0 : dilution = 0
        · rw [h0] at hd
          by_cases hle : first ≤ last
          · obtain ⟨d', e, h1, h2, _⟩ := C113_default_dilution first last hle (by omega)
            rw [hd] at e; injection e with e; subst e
            exact ⟨by rw [u64Lim]; omega, fun _ => h1⟩
          · rw [dilutionOf, if_pos rfl, subU, if_neg hle] at hd; simp at hd
        · rw [C113_given_dilution dilution first last h0] at hd
          injection hd with hd; subst hd
          exact ⟨hdil, fun _ => by omega⟩
      by_cases hle : first ≤ last
      · obtain ⟨p, h1, h2, h3, h4, h5, h6, h7, h8, h9, h10, h11⟩ :=
          generated_facts hK E C master eph seed a first last d hle (hd1.2 hle) hl
        rw [partGenerate, hd] at h
        simp only [ha, h1] at h
        injection h with e1 e2 _
        injection e2 with e2
        have hid : i.dilution = d := by rw [← e2]; exact h6
        rw [hid] at hn
        have hp : PartOk K p :=
          ⟨by rw [h2]; exact (C12_accepted_is_canonical hash hh parent a ha).1, by rw [h3]; exact hseed,
            by rw [h3]; exact hC.compress_len _, h11 hn, by rw [h4]; omega, by rw [h5]; omega, by rw [h6]; exact hd1.1⟩
        have := C28_roundtrip hK s p hp
        rw [e1] at this
        rw [partInfo, this]
        simp only [e2]
      · rw [partGenerate, hd] at h
        simp only [ha, fillDb] at h
        rw [if_pos (by omega)] at h
        simp at h

/-- **C114**: when the command does not complete, nothing is stored; an interval in the wrong order is refused with a
message if a dilution is given. -/
theorem C114_failure_stores_nothing (K : Keys S) (hash : Bytes → Bytes) (E : Ots.Enc) (C : Vrf.Curve G)
    (master : S.Sk) (eph : Nat → S.Sk) (seed : Bytes) (keyfile : Text) (first last dilution : Nat) (parent : Bytes)
    (s : Store) :
    ((partGenerate hash E K C master eph seed keyfile first last dilution parent s).exit ≠ .done →
      (partGenerate hash E K C master eph seed keyfile first last dilution parent s).store = s) ∧
    (last < first → dilution ≠ 0 → ∀ a, Address.fromStr hash parent = .ok a →
      partGenerate hash E K C master eph seed keyfile first last dilution parent s = ⟨s, none, .failed⟩) := by
  constructor
  · rw [partGenerate]
    repeat' split
    all_goals simp
  · intro h h0 a ha
    rw [partGenerate, C113_given_dilution dilution first last h0]
    simp only [ha, fillDb]
    rw [if_pos h]

/-- **C115** is violated: without a dilution an interval in the wrong order crashes the command, and so does every parent
that is not an address, instead of being reported. -/
theorem C115_violated (K : Keys S) (hash : Bytes → Bytes) (E : Ots.Enc) (C : Vrf.Curve G)
    (master : S.Sk) (eph : Nat → S.Sk) (seed : Bytes) (keyfile : Text) (first last dilution : Nat) (parent : Bytes)
    (s : Store) :
    (last < first → partGenerate hash E K C master eph seed keyfile first last 0 parent s = ⟨s, none, .panicked⟩) ∧
    ((∀ a, Address.fromStr hash parent ≠ .ok a) →
      partGenerate hash E K C master eph seed keyfile first last dilution parent s = ⟨s, none, .panicked⟩) := by
  constructor
  · intro h
    rw [partGenerate, dilutionOf, if_pos rfl, subU, if_neg (by omega)]
    rfl
  · intro h
    rw [partGenerate]
    split
    · cases ha : Address.fromStr hash parent with
      | ok a => exact absurd ha (h a)
      | err e => rfl
      | panic => rfl
    · rfl

/-- **C115** is violated: looking at or reparenting keys that were never made crashes. -/
theorem C115_no_keys_panics (K : Keys S) (hash : Bytes → Bytes) (keyfile : Text) (s : Store) (hs : s .parent = none) :
    partInfo K keyfile s = ⟨s, none, .panicked⟩ ∧
    ∀ parent a, Address.fromStr hash parent = .ok a → partReparent hash K keyfile parent s = ⟨s, none, .panicked⟩ := by
  have hr : restore K s = .panic := by rw [restore, hs]; rfl
  constructor
  · rw [partInfo, hr]
  · intro parent a ha
    rw [partReparent, ha]
    simp only
    rw [hr]

/-- **C115**, what holds: `part reparent` reports every parent text of the length of an address that is not one, and
changes nothing. Missing: the crashes above. -/
theorem C115_reparent_reports_partial (K : Keys S) (hash : Bytes → Bytes) (hh : ∀ b, (hash b).length = 32) (keyfile : Text)
    (parent : Bytes) (hlen : parent.length = 58) (hp : ∀ a, Address.fromStr hash parent ≠ .ok a) (s : Store) :
    partReparent hash K keyfile parent s = ⟨s, none, .failed⟩ := by
  rw [partReparent]
  cases ha : Address.fromStr hash parent with
  | ok a => exact absurd ha (hp a)
  | err e => rfl
  | panic => exact absurd ha (C13_no_panic_right_length_partial hash hh parent hlen)

/-- **C116**: `part reparent` changes the parent and nothing else: what is stored afterwards is restored as the same keys
with the new parent, and the value under every other name is untouched. -/
theorem C116_reparent {K : Keys S} (hK : GoodKeys K) (hash : Bytes → Bytes) (hh : ∀ b, (hash b).length = 32)
    (keyfile keyfile' : Text) (parent a : Bytes) (s : Store) (p : Participation S) (hp : PartOk K p) (hs : Holds K s p)
    (ha : Address.fromStr hash parent = .ok a) :
    ∃ s' i, partReparent hash K keyfile parent s = ⟨s', some i, .done⟩ ∧ i = { info p with parent := a } ∧
      restore K s' = .ok { p with parent := a } ∧ (∀ n, n ≠ .parent → s' n = s n) ∧
      partInfo K keyfile' s' = ⟨s', some i, .done⟩ := by
  have hr := restore_holds hK hp hs
  have hp' : PartOk K { p with parent := a } :=
    ⟨(C12_accepted_is_canonical hash hh parent a ha).1, hp.vrfPriv, hp.vrfPub, hp.voting, hp.firstValid, hp.lastValid,
      hp.keyDilution⟩
  have hs' : Holds K (s.inserts (persistNewParent { p with parent := a })) { p with parent := a } := by
    simp only [Holds, persist, List.mem_cons, List.not_mem_nil, or_false, forall_eq_or_imp, forall_eq] at hs
    simp [Holds, persist, persistNewParent, Store.inserts, Store.insert, hs]
  have hr' := restore_holds hK hp' hs'
  refine ⟨s.inserts (persistNewParent { p with parent := a }), info { p with parent := a }, ?_, rfl, hr', ?_, ?_⟩
  · rw [partReparent, ha]
    simp only
    rw [hr]
  · intro n hn
    simp [persistNewParent, Store.inserts, Store.insert, hn]
  · rw [partInfo, hr']

/-- **C117** is violated: the file name is ignored, for all names and keys. Keys made under a second name replace those made under the first. -/
theorem C117_second_replaces_first {K : Keys S} (hK : GoodKeys K) (hash : Bytes → Bytes) (E : Ots.Enc) (C : Vrf.Curve G)
    (hC : GoodCurve C) (hh : ∀ b, (hash b).length = 32)
    (master : S.Sk) (eph : Nat → S.Sk) (seed : Bytes) (hseed : seed.length = 32) (file file' : Text) (s s' : Store)
    (first last dilution : Nat) (hdil : dilution < u64Lim) (parent : Bytes) (i : Info) (hl : last + 1 < u64Lim)
    (old : Info) (_hold : partInfo K file s = ⟨s, some old, .done⟩)
    (h : partGenerate hash E K C master eph seed file' first last dilution parent s = ⟨s', some i, .done⟩)
    (hn : last / i.dilution - first / i.dilution + 1 < u32Lim) :
    partInfo K file s' = ⟨s', some i, .done⟩ :=
  C114_info_after_generate hK hash E C hC hh master eph seed hseed file' file first last dilution hdil parent s s' i hl h hn

/-- **C117**, what holds: keys are found under the name under which they were made, as long as no others are made.
Missing: a second set of keys. -/
theorem C117_same_name_partial {K : Keys S} (hK : GoodKeys K) (hash : Bytes → Bytes) (E : Ots.Enc) (C : Vrf.Curve G)
    (hC : GoodCurve C) (hh : ∀ b, (hash b).length = 32)
    (master : S.Sk) (eph : Nat → S.Sk) (seed : Bytes) (hseed : seed.length = 32) (file : Text) (s s' : Store)
    (first last dilution : Nat) (hdil : dilution < u64Lim) (parent : Bytes) (i : Info) (hl : last + 1 < u64Lim)
    (h : partGenerate hash E K C master eph seed file first last dilution parent s = ⟨s', some i, .done⟩)
    (hn : last / i.dilution - first / i.dilution + 1 < u32Lim) :
    partInfo K file s' = ⟨s', some i, .done⟩ :=
  C114_info_after_generate hK hash E C hC hh master eph seed hseed file file first last dilution hdil parent s s' i hl h hn

/-! ## A concrete run -/

/-- A parent address in the toy setting. -/
theorem toy_parent : ∃ t, Address.fromStr toyKeyLib.hash t = .ok (List.replicate 32 4) := by
  obtain ⟨t, _, _, h⟩ := C12_roundtrip toyKeyLib.hash toyKeyLib_good.hash (List.replicate 32 4) (by simp)
  exact ⟨t, h⟩

/-- **C117** is violated in a concrete run: keys for the rounds 15 to 38 are made under the name `a`, then keys for the
rounds 50 to 60 under the name `b`; the name `a` now shows the second keys. -/
theorem C117_violated : ∃ (t : Bytes) (s1 s2 : Store) (i1 i2 : Info),
    partGenerate toyKeyLib.hash toyOtsEnc byteKeys toyCurve (7 : UInt8) (fun i => UInt8.ofNat i) (List.replicate 32 5)
      ['a'] 15 38 10 t (fun _ => none) = ⟨s1, some i1, .done⟩ ∧
    partInfo byteKeys ['a'] s1 = ⟨s1, some i1, .done⟩ ∧
    partGenerate toyKeyLib.hash toyOtsEnc byteKeys toyCurve (8 : UInt8) (fun i => UInt8.ofNat i) (List.replicate 32 6)
      ['b'] 50 60 10 t s1 = ⟨s2, some i2, .done⟩ ∧
    partInfo byteKeys ['a'] s2 = ⟨s2, some i2, .done⟩ ∧ i1.first = 15 ∧ i2.first = 50 := by
  obtain ⟨t, ht⟩ := toy_parent
  have hlim : 100 < u64Lim := by rw [u64Lim]; omega
  have hlim32 : 100 < u32Lim := by rw [u32Lim]; omega
  obtain ⟨p1, i1, a1, _, a2, _, a3, _⟩ := C114_generates byteKeys_good toyKeyLib.hash toyOtsEnc toyCurve (7 : UInt8)
    (fun i => UInt8.ofNat i) (List.replicate 32 5) ['a'] 15 38 10 t _ (fun _ => none) (by omega) (by omega) ht
  obtain ⟨p2, i2, b1, _, b2, _, b3, _⟩ := C114_generates byteKeys_good toyKeyLib.hash toyOtsEnc toyCurve (8 : UInt8)
    (fun i => UInt8.ofNat i) (List.replicate 32 6) ['b'] 50 60 10 t _ (Store.inserts (fun _ => none) (persist byteKeys p1))
    (by omega) (by omega) ht
  have a3 := a3 (by omega)
  have b3 := b3 (by omega)
  refine ⟨t, _, _, i1, i2, a1, ?_, b1, ?_, a2, b2⟩
  · exact C114_info_after_generate byteKeys_good toyKeyLib.hash toyOtsEnc toyCurve toyCurve_good toyKeyLib_good.hash _ _ _
      (by simp) ['a'] ['a'] 15 38 10 (by omega) t _ _ i1 (by omega) a1 (by rw [a3]; omega)
  · exact C114_info_after_generate byteKeys_good toyKeyLib.hash toyOtsEnc toyCurve toyCurve_good toyKeyLib_good.hash _ _ _
      (by simp) ['b'] ['a'] 50 60 10 (by omega) t _ _ i2 (by omega) b1 (by rw [b3]; omega)

example : Holds byteKeys (Store.inserts (fun _ => none) (persist byteKeys (toyPart 1))) (toyPart 1) ∧
    PartOk byteKeys (toyPart 1) :=
  ⟨by simp [Holds, persist, Store.inserts, Store.insert], toyPart_ok 1⟩

/-! ## Cases -/

/-- A case of `C113_given_dilution`. -/
example : dilutionOf 7 1000 3000000 = .ok 7 := C113_given_dilution 7 1000 3000000 (by decide)

/-- A case of `C114_generates`, `C114_info_after_generate` and `C117_same_name_partial`: rounds 15 to 38 with dilution ten
for the account with bytes 4. The later report is the one given at generation. -/
theorem toyGenerate (s : Store) : ∃ t s' i, partGenerate toyKeyLib.hash toyOtsEnc byteKeys toyCurve (7 : UInt8)
      (fun i => UInt8.ofNat i) (List.replicate 32 5) ['k'] 15 38 10 t s = ⟨s', some i, .done⟩ ∧
    i.parent = List.replicate 32 4 ∧ i.firstBatch = 1 ∧ partInfo byteKeys ['k'] s' = ⟨s', some i, .done⟩ := by
  obtain ⟨t, ht⟩ := toy_parent
  obtain ⟨p, i, h, h1, _, _, h2, _, h3, _⟩ := C114_generates byteKeys_good toyKeyLib.hash toyOtsEnc toyCurve (7 : UInt8)
    (fun i => UInt8.ofNat i) (List.replicate 32 5) ['k'] 15 38 10 t _ s (by decide) (by decide) ht
  have hd : i.dilution = 10 := h2 (by decide)
  rw [hd] at h3
  exact ⟨t, _, i, h, h1, h3, C117_same_name_partial byteKeys_good toyKeyLib.hash toyOtsEnc toyCurve toyCurve_good
    toyKeyLib_good.hash (7 : UInt8) _ _ (by decide) ['k'] s _ 15 38 10 (by decide) t i (by decide) h (by rw [hd]; decide)⟩

/-- A case of `C117_second_replaces_first`: keys generated twice, under different names; the first name shows the second keys. -/
example : ∃ s s' old i, partInfo byteKeys ['k'] s = ⟨s, some old, .done⟩ ∧ partInfo byteKeys ['k'] s' = ⟨s', some i, .done⟩ ∧
    old.firstBatch = 1 ∧ i.firstBatch = 5 := by
  obtain ⟨_, s, old, _, _, hb, h0⟩ := toyGenerate (fun _ => none)
  obtain ⟨t, ht⟩ := toy_parent
  obtain ⟨p, i, h, h1, _, _, h2, _, h3, _⟩ := C114_generates byteKeys_good toyKeyLib.hash toyOtsEnc toyCurve (9 : UInt8)
    (fun i => UInt8.ofNat i) (List.replicate 32 6) ['l'] 50 60 10 t _ s (by decide) (by decide) ht
  have hd : i.dilution = 10 := h2 (by decide)
  rw [hd] at h3
  exact ⟨s, _, old, i, h0, C117_second_replaces_first byteKeys_good toyKeyLib.hash toyOtsEnc toyCurve toyCurve_good
    toyKeyLib_good.hash (9 : UInt8) _ _ (by decide) ['k'] ['l'] s _ 50 60 10 (by decide) t i (by decide) old h0 h
    (by rw [hd]; decide), hb, h3⟩

/-- A case of `C114_failure_stores_nothing` and `C115_violated`: an interval that ends before it begins. With a dilution the
command reports a failure, without one it crashes. -/
example (s : Store) : ∃ t,
    partGenerate toyKeyLib.hash toyOtsEnc byteKeys toyCurve (7 : UInt8) (fun i => UInt8.ofNat i) [] ['k'] 38 15 10 t s =
      ⟨s, none, .failed⟩ ∧
    partGenerate toyKeyLib.hash toyOtsEnc byteKeys toyCurve (7 : UInt8) (fun i => UInt8.ofNat i) [] ['k'] 38 15 0 t s =
      ⟨s, none, .panicked⟩ := by
  obtain ⟨t, ht⟩ := toy_parent
  exact ⟨t, (C114_failure_stores_nothing byteKeys toyKeyLib.hash toyOtsEnc toyCurve (7 : UInt8) _ [] ['k'] 38 15 10 t s).2
    (by decide) (by decide) _ ht,
    (C115_violated byteKeys toyKeyLib.hash toyOtsEnc toyCurve (7 : UInt8) _ [] ['k'] 38 15 0 t s).1 (by decide)⟩

/-- A case of `C115_no_keys_panics`: an empty store. -/
example : partInfo byteKeys ['k'] (fun _ => none) = ⟨fun _ => none, none, .panicked⟩ :=
  (C115_no_keys_panics byteKeys toyKeyLib.hash ['k'] (fun _ => none) rfl).1

/-- A case of `C115_reparent_reports_partial`: 58 digits 1, which is not a base 32 digit. -/
example : partReparent toyKeyLib.hash byteKeys ['k'] (List.replicate 58 49) (fun _ => none) =
    ⟨fun _ => none, none, .failed⟩ := by
  refine C115_reparent_reports_partial byteKeys toyKeyLib.hash toyKeyLib_good.hash ['k'] _ (by decide) (fun a h => ?_) _
  have := (C12_accepted_is_canonical toyKeyLib.hash toyKeyLib_good.hash _ a h)
  rw [Address.fromStr, show Base32.decode (List.replicate 58 49) = none by decide +kernel] at h
  cases h

/-- A case of `C116_reparent`: the stored keys of `toyPart 1` moved to the account with bytes 4. -/
example : ∃ t s' i, partReparent toyKeyLib.hash byteKeys ['k'] t
      (Store.inserts (fun _ => none) (persist byteKeys (toyPart 1))) = ⟨s', some i, .done⟩ ∧
    restore byteKeys s' = .ok { toyPart 1 with parent := List.replicate 32 4 } := by
  obtain ⟨t, ht⟩ := toy_parent
  obtain ⟨s', i, h1, _, h2, _⟩ := C116_reparent byteKeys_good toyKeyLib.hash toyKeyLib_good.hash ['k'] ['k'] t _
    (Store.inserts (fun _ => none) (persist byteKeys (toyPart 1))) (toyPart 1) (toyPart_ok 1)
    (by simp [Holds, persist, Store.inserts, Store.insert]) ht
  exact ⟨t, s', i, h1, h2⟩

end Verif.Props
