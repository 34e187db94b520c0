import Verif.Model.Upgrade
import Verif.Props.Consensus
import Mathlib.Tactic.Tauto
import Mathlib.Tactic.ByContra
/-!
# Properties of protocol upgrades (C31 - C33, C79)
-/

namespace Verif.Props
open Verif Verif.Consensus Verif.Block

/-- A chain of blocks: the votes of rounds `r + 1, r + 2, ...` applied in turn. -/
def runVotes (tbl : Protocols) : UpgradeState → Nat → List UpgradeVote → UpRes UpgradeState
  | s, _, [] => .ok s
  | s, r, v :: vs => do
    let s' ← applyUpgradeVote tbl s (r + 1) v
    runVotes tbl s' (r + 1) vs

theorem runVotes_append (tbl : Protocols) (s : UpgradeState) (r : Nat) (a b : List UpgradeVote) :
    runVotes tbl s r (a ++ b) = (do let s' ← runVotes tbl s r a; runVotes tbl s' (r + a.length) b) := by
  induction a generalizing s r with
  | nil => simp [runVotes]
  | cons v a ih =>
    rw [List.cons_append, runVotes, runVotes]
    cases applyUpgradeVote tbl s (r + 1) v with
    | ok s' =>
      simp only [Res.ok_bind]
      rw [ih, List.length_cons, Nat.add_assoc, Nat.add_comm 1]
    | err e => simp
    | panic => simp

theorem runVotes_snoc (tbl : Protocols) (s t : UpgradeState) (r : Nat) (a : List UpgradeVote) (v : UpgradeVote)
    (h : runVotes tbl s r (a ++ [v]) = .ok t) :
    ∃ s', runVotes tbl s r a = .ok s' ∧ applyUpgradeVote tbl s' (r + a.length + 1) v = .ok t := by
  rw [runVotes_append] at h
  obtain ⟨s', h1, h2⟩ := Res.bind_eq_ok.1 h
  refine ⟨s', h1, ?_⟩
  rw [runVotes] at h2
  obtain ⟨s'', h3, h4⟩ := Res.bind_eq_ok.1 h2
  simp only [runVotes, Res.ok.injEq] at h4
  rw [h3, h4]

/-- The delay that a proposal gets: zero stands for the default. -/
def effDelay (p : Params) (v : UpgradeVote) : Nat := if v.delay = 0 then p.defaultUpgradeWaitRounds else v.delay

/-- Exact effect of one accepted vote. -/
theorem apply_ok (tbl : Protocols) (s t : UpgradeState) (p : Params) (hp : lookup tbl s.current = some p) (r : Nat)
    (v : UpgradeVote) (h : applyUpgradeVote tbl s r v = .ok t) :
    ∃ s1 s2,
      (v.propose = s.current ∧ v.delay = 0 ∧ s1 = s ∨
       v.propose ≠ s.current ∧ s.next = some s.current ∧ p.minUpgradeWaitRounds ≤ v.delay ∧
        v.delay ≤ p.maxUpgradeWaitRounds ∧
        s1 = ⟨s.current, some v.propose, 0, r + p.upgradeVoteRounds, r + p.upgradeVoteRounds + effDelay p v⟩) ∧
      (v.approve = false ∧ s2 = s1 ∨
       v.approve = true ∧ s1.next ≠ some s1.current ∧ r < s1.voteBefore ∧ s2 = { s1 with approvals := s1.approvals + 1 }) ∧
      (r = s2.voteBefore ∧ s2.approvals < p.upgradeThreshold ∧ r ≠ 0 ∧ t = ⟨s2.current, none, 0, 0, 0⟩ ∨
       r = s2.voteBefore ∧ s2.approvals < p.upgradeThreshold ∧ r = 0 ∧ False ∨
       ¬ (r = s2.voteBefore ∧ s2.approvals < p.upgradeThreshold) ∧
        (r ≠ s2.switchOn ∧ t = s2 ∨ r = s2.switchOn ∧ ∃ n, s2.next = some n ∧ t = ⟨n, none, 0, 0, 0⟩)) := by
  rw [applyUpgradeVote, hp] at h
  simp only [Res.ofOption_some, Res.ok_bind] at h
  obtain ⟨s1, h1, h⟩ := Res.bind_eq_ok.1 h
  obtain ⟨s2, h2, h3⟩ := Res.bind_eq_ok.1 h
  refine ⟨s1, s2, ?_, ?_, ?_⟩
  · rw [applyProposal] at h1
    split at h1
    · rename_i hne
      right
      split at h1
      · simp at h1
      · rename_i hn
        split at h1
        · simp at h1
        · rename_i hd
          have hd' : (if v.delay = 0 then p.defaultUpgradeWaitRounds else v.delay) = effDelay p v := rfl
          rw [hd'] at h1
          simp only [addU64] at h1
          split at h1
          · rw [Res.ok_bind] at h1
            split at h1
            · rw [Res.ok_bind] at h1
              simp only [Res.ok.injEq] at h1
              exact ⟨hne, by simpa using hn, by omega, by omega, h1.symm⟩
            · rw [Res.panic_bind] at h1; cases h1
          · rw [Res.panic_bind] at h1; cases h1
    · rename_i hne
      left
      split at h1
      · simp at h1
      · rename_i hd
        simp only [Res.ok.injEq] at h1
        exact ⟨by simpa using hne, by simpa using hd, h1.symm⟩
  · rw [applyApproval] at h2
    split at h2
    · rename_i ha
      right
      split at h2
      · simp at h2
      · rename_i hn
        split at h2
        · simp at h2
        · rename_i hr
          simp only [addU64] at h2
          split at h2
          · simp only [Res.ok_bind, Res.ok.injEq] at h2
            exact ⟨ha, hn, by omega, h2.symm⟩
          · simp at h2
    · rename_i ha
      left
      simp only [Res.ok.injEq] at h2
      exact ⟨by simpa using ha, h2.symm⟩
  · rw [clearFailed] at h3
    by_cases hc : r = s2.voteBefore ∧ s2.approvals < p.upgradeThreshold
    · rw [if_pos hc, switchOver] at h3
      by_cases hr : r = 0
      · rw [if_pos hr] at h3
        simp [Res.ofOption_none] at h3
      · left
        rw [if_neg hr] at h3
        simp only [Res.ok.injEq] at h3
        exact ⟨hc.1, hc.2, hr, h3.symm⟩
    · right; right
      refine ⟨hc, ?_⟩
      rw [if_neg hc, switchOver] at h3
      by_cases hr : r = s2.switchOn
      · right
        rw [if_pos hr] at h3
        refine ⟨hr, ?_⟩
        cases hn : s2.next with
        | none => simp [hn, Res.ofOption_none] at h3
        | some n =>
          rw [hn] at h3
          simp only [Res.ofOption_some, Res.ok_bind, Res.ok.injEq] at h3
          exact ⟨n, rfl, h3.symm⟩
      · left
        rw [if_neg hr] at h3
        simp only [Res.ok.injEq] at h3
        exact ⟨hr, h3.symm⟩

/-- Acceptance needs a known current protocol. -/
theorem apply_known (tbl : Protocols) (s t : UpgradeState) (r : Nat) (v : UpgradeVote)
    (h : applyUpgradeVote tbl s r v = .ok t) : ∃ p, lookup tbl s.current = some p := by
  rw [applyUpgradeVote] at h
  cases hp : lookup tbl s.current with
  | none => simp [hp, Res.ofOption_none] at h
  | some p => exact ⟨p, rfl⟩

/-! ## C31: upgrades are possible -/

/-- The state in which every chain starts, and the state after a failed or a completed upgrade: no pending proposal. -/
def noProposal (c : Version) : UpgradeState := ⟨c, none, 0, 0, 0⟩

/-- C31 is false: with no pending proposal every proposal of another version is rejected. -/
theorem C31_proposal_always_rejected (tbl : Protocols) (c : Version) (p : Params) (hp : lookup tbl c = some p) (r : Nat)
    (v : UpgradeVote) (hv : v.propose ≠ c) :
    applyUpgradeVote tbl (noProposal c) r v = .err (.competingProposal, noProposal c) := by
  have hne : v.propose ≠ (noProposal c).current := hv
  rw [applyUpgradeVote, show (noProposal c).current = c from rfl, hp, Res.ofOption_some, Res.ok_bind, applyProposal,
    if_pos hne, if_pos (by simp [noProposal]), Res.err_bind]

/-- C31 is false for all histories: from a state without proposal no chain of accepted blocks, whatever its votes, ever
changes the upgrade state. -/
theorem C31_never_upgrades (tbl : Protocols) (c : Version) (r : Nat) (votes : List UpgradeVote) (t : UpgradeState)
    (h : runVotes tbl (noProposal c) r votes = .ok t) : t = noProposal c := by
  induction votes generalizing r with
  | nil => simp only [runVotes, Res.ok.injEq] at h; exact h.symm
  | cons v vs ih =>
    rw [runVotes] at h
    obtain ⟨s', h1, h2⟩ := Res.bind_eq_ok.1 h
    obtain ⟨p, hp⟩ := apply_known _ _ _ _ _ h1
    obtain ⟨s1, s2, ha, hb, hc⟩ := apply_ok tbl _ _ p hp _ _ h1
    have e1 : s1 = noProposal c := by
      rcases ha with ⟨_, _, h⟩ | ⟨_, h, _⟩
      · exact h
      · simp [noProposal] at h
    subst e1
    have e2 : s2 = noProposal c := by
      rcases hb with ⟨_, h⟩ | ⟨_, _, h, _⟩
      · exact h
      · simp [noProposal] at h
    subst e2
    have e3 : s' = noProposal c := by
      rcases hc with ⟨h, _⟩ | ⟨_, _, _, h⟩ | ⟨_, h⟩
      · simp [noProposal] at h
      · exact h.elim
      · rcases h with ⟨_, h⟩ | ⟨h, _⟩
        · exact h
        · simp [noProposal] at h
    subst e3
    exact ih _ h2

/-- A node can still build blocks on a chain without proposal exactly when its protocol is the default version and has no
approved upgrade; under any other protocol building a block fails. -/
theorem C31_build_iff (tbl : Protocols) (c : Version) (p : Params) (hp : lookup tbl c = some p)
    (hnew : ∀ u ∈ p.approvedUpgrades, u.1 ≠ c) (r : Nat) (hr : r + 1 < 2 ^ 64) :
    (∃ x, processUpgradeParams tbl r (noProposal c) = .ok x) ↔ c = .v30 ∧ p.approvedUpgrades = [] := by
  have hstep : processUpgradeParams tbl r (noProposal c) =
      (do let s' ← applyUpgradeVote tbl (noProposal c) (r + 1) (initialVote p (noProposal c))
          .ok (initialVote p (noProposal c), s')) := by
    have hc : (noProposal c).current = c := rfl
    have hvb : ¬ r + 1 < (noProposal c).voteBefore := by simp [noProposal]
    rw [processUpgradeParams, hc, hp, Res.ofOption_some, Res.ok_bind, addU64, if_pos (show r + 1 < u64Lim from hr),
      Res.ok_bind, if_neg hvb, Res.ok_bind]
  rw [hstep]
  constructor
  · rintro ⟨x, hx⟩
    obtain ⟨s', h1, _⟩ := Res.bind_eq_ok.1 hx
    have hprop : (initialVote p (noProposal c)).propose = c := by
      by_contra hcon
      rw [C31_proposal_always_rejected tbl c p hp _ _ hcon] at h1
      simp at h1
    cases hu : p.approvedUpgrades with
    | nil =>
      refine ⟨?_, rfl⟩
      rw [← hprop, initialVote, hu]
      rfl
    | cons u us =>
      exfalso
      apply hnew u (by simp [hu])
      rw [← hprop, initialVote, hu]
      rfl
  · rintro ⟨rfl, hu⟩
    refine ⟨(UpgradeVote.default, noProposal .v30), ?_⟩
    have hv : initialVote p (noProposal .v30) = UpgradeVote.default := by rw [initialVote, hu]; rfl
    rw [hv]
    simp only [applyUpgradeVote, noProposal, hp, Res.ofOption_some, Res.ok_bind, applyProposal, UpgradeVote.default,
      applyApproval, clearFailed, switchOver]
    simp

/-- C31 is false for every released protocol of the built-in table other than the newest: a node cannot build a block on
a chain running it. -/
theorem C31_only_newest_runs (v : Version) (p : Params) (hp : lookup builtin v = some p) (r : Nat) (hr : r + 1 < 2 ^ 64) :
    (∃ x, processUpgradeParams builtin r (noProposal v) = .ok x) ↔ v = .v30 := by
  rw [C31_build_iff builtin v p hp _ r hr]
  · constructor
    · exact fun h => h.1
    · rintro rfl
      refine ⟨rfl, ?_⟩
      have : (lookup builtin .v30).map (·.approvedUpgrades) = some [] := by decide +kernel
      rw [hp] at this
      simpa using this
  · intro u hu
    have := ((C61_rows_coherent v p hp).1 u.1 u.2 hu).2.2.2.1
    intro h
    rw [h] at this
    omega

example : (lookup builtin .v29).isSome = true ∧ (lookup builtin .v30).isSome = true := by decide +kernel

/-- The state from which the code does accept proposals: the pending version is the current one. No function of the
repository produces it. -/
def openState (c : Version) : UpgradeState := ⟨c, some c, 0, 0, 0⟩

/-- The votes of the blocks after a proposal: no further proposal, approvals only before the deadline; `k` is the number
of rounds left in which approvals count. -/
def Ballots (c : Version) : Nat → List UpgradeVote → Prop
  | _, [] => True
  | k, v :: vs => v.propose = c ∧ v.delay = 0 ∧ (v.approve = true → 0 < k) ∧ Ballots c (k - 1) vs

/-- Number of approving votes. -/
def approvalCount (vs : List UpgradeVote) : Nat := vs.countP (fun v => v.approve)

theorem approvalCount_cons (v : UpgradeVote) (vs : List UpgradeVote) :
    approvalCount (v :: vs) = approvalCount vs + if v.approve then 1 else 0 := by
  rw [approvalCount, List.countP_cons]; rfl

theorem no_late_ballots {c : Version} {k : Nat} {vs : List UpgradeVote} (hk : k = 0) (h : Ballots c k vs) :
    approvalCount vs = 0 := by
  subst hk
  induction vs with
  | nil => rfl
  | cons v vs ih =>
    obtain ⟨_, _, h3, h4⟩ := h
    rw [approvalCount_cons, ih h4]
    cases hv : v.approve
    · rfl
    · exact absurd (h3 hv) (by omega)

/-- Running the ballots of a pending proposal from round `r` to the switch round. -/
theorem run_pending (tbl : Protocols) (c n : Version) (p : Params) (hp : lookup tbl c = some p) (hcn : n ≠ c)
    (post : List UpgradeVote) (r a vb so : Nat) (hr0 : 0 < r) (hrv : r < vb ∨ p.upgradeThreshold ≤ a) (hvs : vb ≤ so)
    (ha : a + approvalCount post < 2 ^ 64) (hb : Ballots c (vb - (r + 1)) post)
    (hlen : r + post.length = so) (hlt : r < so) :
    runVotes tbl ⟨c, some n, a, vb, so⟩ r post =
      .ok (if p.upgradeThreshold ≤ a + approvalCount post then noProposal n else noProposal c) := by
  have hidle : ∀ (vs : List UpgradeVote) (q : Nat), 0 < q → Ballots c 0 vs →
      runVotes tbl (noProposal c) q vs = .ok (noProposal c) := by
    intro vs
    induction vs with
    | nil => intros; rfl
    | cons v vs ih =>
      intro q hq hb
      obtain ⟨b1, b2, b3, b4⟩ := hb
      have happ : v.approve = false := by
        cases hv : v.approve
        · rfl
        · exact absurd (b3 hv) (by omega)
      rw [runVotes]
      have : applyUpgradeVote tbl (noProposal c) (q + 1) v = .ok (noProposal c) := by
        simp only [applyUpgradeVote, noProposal, hp, Res.ofOption_some, Res.ok_bind, applyProposal, b1, b2,
          applyApproval, happ, clearFailed, switchOver]
        simp
      rw [this, Res.ok_bind]
      exact ih (q + 1) (by omega) b4
  induction post generalizing r a with
  | nil => simp only [List.length_nil] at hlen; omega
  | cons v vs ih =>
    obtain ⟨b1, b2, b3, b4⟩ := hb
    simp only [List.length_cons] at hlen
    rw [approvalCount_cons] at ha ⊢
    have hne : ¬ (some n = some c) := by simpa using hcn
    have hap : applyApproval ⟨c, some n, a, vb, so⟩ (r + 1) v =
        .ok ⟨c, some n, a + (if v.approve then 1 else 0), vb, so⟩ := by
      rw [applyApproval]
      cases hv : v.approve
      · rfl
      · have := b3 hv
        simp only [if_true, if_neg hne, hv, if_pos] at ha ⊢
        rw [if_neg (by omega), addU64, if_pos (show a + 1 < u64Lim by simp only [u64Lim]; omega)]
        rfl
    have hstep : applyUpgradeVote tbl ⟨c, some n, a, vb, so⟩ (r + 1) v =
        switchOver (clearFailed p ⟨c, some n, a + (if v.approve then 1 else 0), vb, so⟩ (r + 1)) (r + 1) := by
      simp only [applyUpgradeVote, hp, Res.ofOption_some, Res.ok_bind, applyProposal, b1, b2, ne_eq, not_true_eq_false,
        if_false, hap]
    rw [runVotes, hstep]
    generalize hA : a + (if v.approve then 1 else 0) = A at *
    have hsum : a + (approvalCount vs + if v.approve then 1 else 0) = A + approvalCount vs := by omega
    rw [hsum] at ha ⊢
    have hk : vb - (r + 1) - 1 = vb - (r + 1 + 1) := by omega
    rw [hk] at b4
    rw [clearFailed]
    by_cases hclr : r + 1 = vb ∧ A < p.upgradeThreshold
    · -- the proposal fails now
      rw [if_pos hclr]
      have hz : approvalCount vs = 0 := no_late_ballots (by omega) b4
      have h0 : vb - (r + 1 + 1) = 0 := by omega
      rw [h0] at b4
      rw [if_neg (show ¬ p.upgradeThreshold ≤ A + approvalCount vs by omega), switchOver, if_neg (by simp), Res.ok_bind]
      exact hidle vs _ (by omega) b4
    · rw [if_neg hclr, switchOver]
      by_cases hsw : r + 1 = so
      · have hnil : vs = [] := List.length_eq_zero_iff.1 (by omega)
        subst hnil
        have hz : approvalCount [] = 0 := rfl
        have hthr : p.upgradeThreshold ≤ A := by
          rcases hrv with h | h <;> omega
        rw [if_pos hsw, if_pos (show p.upgradeThreshold ≤ A + approvalCount [] by omega)]
        rfl
      · rw [if_neg hsw, Res.ok_bind]
        exact ih (r + 1) A (by omega) (by rcases hrv with h | h <;> omega) ha b4 (by omega) (by omega)

/-- What holds of C31: from the state in which the code accepts proposals, a proposal with a delay in the window is
accepted, and at the announced round the chain switches exactly if the approvals in the voting window, the proposing
block included, reach the threshold. Missing: chains never are in that state. -/
theorem C31_upgrade_partial (tbl : Protocols) (c n : Version) (p : Params) (hp : lookup tbl c = some p) (hcn : n ≠ c)
    (hV : 0 < p.upgradeVoteRounds) (r d : Nat) (hmin : p.minUpgradeWaitRounds ≤ d) (hmax : d ≤ p.maxUpgradeWaitRounds)
    (app : Bool) (post : List UpgradeVote) (hb : Ballots c (p.upgradeVoteRounds - 1) post)
    (hlen : post.length = p.upgradeVoteRounds + effDelay p ⟨n, d, app⟩)
    (hbig : r + 1 + p.upgradeVoteRounds + effDelay p ⟨n, d, app⟩ < 2 ^ 64)
    (hcount : 1 + post.length < 2 ^ 64) :
    runVotes tbl (openState c) r (⟨n, d, app⟩ :: post) =
      .ok (if p.upgradeThreshold ≤ approvalCount (⟨n, d, app⟩ :: post) then noProposal n else noProposal c) := by
  have hne : ¬ (some n = some c) := by simpa using hcn
  have happ : approvalCount post ≤ post.length := by rw [approvalCount]; exact List.countP_le_length
  have hstep : applyUpgradeVote tbl (openState c) (r + 1) ⟨n, d, app⟩ =
      .ok ⟨c, some n, if app then 1 else 0, r + 1 + p.upgradeVoteRounds,
        r + 1 + p.upgradeVoteRounds + effDelay p ⟨n, d, app⟩⟩ := by
    have hd : ¬ (d > p.maxUpgradeWaitRounds ∨ d < p.minUpgradeWaitRounds) := by omega
    have h1 : applyProposal p (openState c) (r + 1) ⟨n, d, app⟩ = .ok ⟨c, some n, 0, r + 1 + p.upgradeVoteRounds,
        r + 1 + p.upgradeVoteRounds + effDelay p ⟨n, d, app⟩⟩ := by
      rw [applyProposal, if_pos (show n ≠ (openState c).current from hcn), if_neg (by simp [openState]), if_neg hd, addU64,
        if_pos (show r + 1 + p.upgradeVoteRounds < u64Lim by simp only [u64Lim]; omega), Res.ok_bind]
      have hd' : (if d = 0 then p.defaultUpgradeWaitRounds else d) = effDelay p ⟨n, d, app⟩ := rfl
      simp only [hd']
      rw [addU64, if_pos (show _ < u64Lim from hbig), Res.ok_bind]
      rfl
    have h2 : ∀ V D : Nat, 0 < V → applyApproval ⟨c, some n, 0, r + 1 + V, r + 1 + V + D⟩ (r + 1) ⟨n, d, app⟩ =
        .ok ⟨c, some n, if app then 1 else 0, r + 1 + V, r + 1 + V + D⟩ := by
      intro V D hV
      rw [applyApproval]
      cases app
      · rfl
      · simp only [if_true, if_neg hne]
        rw [if_neg (by simp only [ge_iff_le]; omega), addU64, if_pos (by simp), Res.ok_bind]
    have h3 : ∀ a V D : Nat, 0 < V → switchOver (clearFailed p ⟨c, some n, a, r + 1 + V, r + 1 + V + D⟩ (r + 1)) (r + 1) =
        .ok ⟨c, some n, a, r + 1 + V, r + 1 + V + D⟩ := by
      intro a V D hV
      rw [clearFailed, if_neg (by simp only; omega), switchOver, if_neg (by simp only; omega)]
    rw [applyUpgradeVote, show (openState c).current = c from rfl, hp, Res.ofOption_some, Res.ok_bind, h1, Res.ok_bind,
      h2 _ _ hV, Res.ok_bind, h3 _ _ _ hV]
  rw [runVotes, hstep, Res.ok_bind, approvalCount_cons]
  have hk : p.upgradeVoteRounds - 1 = r + 1 + p.upgradeVoteRounds - (r + 1 + 1) := by omega
  rw [hk] at hb
  have hcnt : (if app then 1 else 0) + approvalCount post < 2 ^ 64 := by
    have : (if app then 1 else 0) ≤ 1 := by cases app <;> simp
    omega
  rw [run_pending tbl c n p hp hcn post (r + 1) (if app then 1 else 0) (r + 1 + p.upgradeVoteRounds)
    (r + 1 + p.upgradeVoteRounds + effDelay p ⟨n, d, app⟩) (by omega) (by omega) (by omega) hcnt hb (by omega)
    (by omega), Nat.add_comm]

/-- Two ballots on the switch from protocol 29 to 30 with a small voting window. -/
def toyTable : Protocols :=
  [(.v29, { v29Base with upgradeVoteRounds := 3, upgradeThreshold := 2, minUpgradeWaitRounds := 0,
                         maxUpgradeWaitRounds := 5, defaultUpgradeWaitRounds := 2 }), (.v30, v30Base)]

example : runVotes toyTable (openState .v29) 7
    [⟨.v30, 1, true⟩, ⟨.v29, 0, true⟩, ⟨.v29, 0, false⟩, ⟨.v29, 0, false⟩, ⟨.v29, 0, false⟩] = .ok (noProposal .v30) ∧
    runVotes toyTable (openState .v29) 7
    [⟨.v30, 1, true⟩, ⟨.v29, 0, false⟩, ⟨.v29, 0, false⟩, ⟨.v29, 0, false⟩, ⟨.v29, 0, false⟩] = .ok (noProposal .v29) := by
  decide +kernel

/-! ## C32: the protocol changes only when approved -/

/-- Every protocol of the table votes for at least one round and has a positive default delay. -/
def TableOk (tbl : Protocols) : Prop :=
  ∀ v p, lookup tbl v = some p → 0 < p.upgradeVoteRounds ∧ 0 < p.defaultUpgradeWaitRounds

theorem builtin_waits : builtin.all (fun e =>
    decide (0 < e.2.upgradeVoteRounds) && decide (0 < e.2.defaultUpgradeWaitRounds)) = true := by decide +kernel

/-- The built-in table satisfies the assumption of C32, C33 and C79. -/
theorem C32_builtin_table_ok : TableOk builtin := by
  intro v p h
  have hrow := List.all_eq_true.1 builtin_waits (v, p) ((lookup_eq_some builtin_nodup v p).1 h)
  simpa using hrow

/-- Upgrade states that can follow round `r`: either nothing is scheduled, or another version is, to be switched to after
the vote; and after the vote the threshold has been met. -/
def Sound (tbl : Protocols) (r : Nat) (s : UpgradeState) : Prop :=
  (s.voteBefore = 0 ∧ s.switchOn = 0 ∨ s.voteBefore < s.switchOn ∧ ∃ n, n ≠ s.current ∧ s.next = some n) ∧
  ∀ p, lookup tbl s.current = some p → s.voteBefore ≤ r → r < s.switchOn → p.upgradeThreshold ≤ s.approvals

theorem sound_start (tbl : Protocols) (r : Nat) (c : Version) : Sound tbl r (noProposal c) ∧ Sound tbl r (openState c) := by
  constructor <;> refine ⟨Or.inl ⟨rfl, rfl⟩, ?_⟩ <;> intro p _ _ h <;> simp [noProposal, openState] at h

/-- C32, one block: a sound state stays sound, and the protocol changes only in the switch round of the pending
proposal, to the proposed version, and only if the approvals have met the threshold of the old protocol. -/
theorem C32_step (tbl : Protocols) (ht : TableOk tbl) (s t : UpgradeState) (r : Nat) (v : UpgradeVote)
    (hs : Sound tbl r s) (h : applyUpgradeVote tbl s (r + 1) v = .ok t) :
    Sound tbl (r + 1) t ∧
    (t.current ≠ s.current → r + 1 = s.switchOn ∧ s.next = some t.current ∧
      ∃ p, lookup tbl s.current = some p ∧ p.upgradeThreshold ≤ s.approvals) := by
  obtain ⟨p, hp⟩ := apply_known _ _ _ _ _ h
  obtain ⟨hV, hD⟩ := ht _ _ hp
  obtain ⟨hs1, hs2⟩ := hs
  have hs2 := hs2 p hp
  obtain ⟨s1, s2, ha, hb, hc⟩ := apply_ok tbl _ _ p hp _ _ h
  have hz : ∀ c, Sound tbl (r + 1) ⟨c, none, 0, 0, 0⟩ := fun c => (sound_start tbl (r + 1) c).1
  rcases ha with ⟨_, _, rfl⟩ | ⟨a1, a2, a3, a4, rfl⟩
  · -- no proposal
    have hb' : s2.current = s1.current ∧ s2.next = s1.next ∧ s2.voteBefore = s1.voteBefore ∧ s2.switchOn = s1.switchOn ∧
        (s2.approvals = s1.approvals ∨ r + 1 < s1.voteBefore) := by
      rcases hb with ⟨_, rfl⟩ | ⟨_, _, h2, rfl⟩
      · exact ⟨rfl, rfl, rfl, rfl, Or.inl rfl⟩
      · exact ⟨rfl, rfl, rfl, rfl, Or.inr h2⟩
    obtain ⟨e1, e2, e3, e4, e5⟩ := hb'
    rcases hc with ⟨_, _, _, rfl⟩ | ⟨_, _, _, h⟩ | ⟨hn, hc⟩
    · exact ⟨hz _, fun h => absurd e1 h⟩
    · exact h.elim
    · rw [e3] at hn
      rcases hc with ⟨hne, rfl⟩ | ⟨heq, n, hn2, rfl⟩
      · refine ⟨⟨?_, ?_⟩, fun h => absurd e1 h⟩
        · rw [e1, e2, e3, e4]; exact hs1
        · intro q hq h1 h2
          rw [e1, hp] at hq
          cases hq
          rw [e3] at h1
          rw [e4] at h2
          rcases e5 with e5 | e5
          · rw [e5] at hn ⊢
            by_cases hv : s1.voteBefore = r + 1
            · by_contra hcon
              exact hn ⟨hv.symm, by omega⟩
            · exact hs2 (by omega) (by omega)
          · omega
      · refine ⟨hz _, fun _ => ?_⟩
        rw [e4] at heq
        rw [e2] at hn2
        refine ⟨heq, hn2, p, hp, ?_⟩
        have hlt : s1.voteBefore < s1.switchOn := by
          rcases hs1 with h | h
          · omega
          · exact h.1
        exact hs2 (by omega) (by omega)
  · -- a proposal
    have hD' : 0 < effDelay p v := by
      rw [effDelay]; split <;> omega
    have hb' : s2.current = s.current ∧ s2.next = some v.propose ∧ s2.voteBefore = r + 1 + p.upgradeVoteRounds ∧
        s2.switchOn = r + 1 + p.upgradeVoteRounds + effDelay p v := by
      rcases hb with ⟨_, rfl⟩ | ⟨_, _, _, rfl⟩ <;> exact ⟨rfl, rfl, rfl, rfl⟩
    obtain ⟨e1, e2, e3, e4⟩ := hb'
    rcases hc with ⟨h1, _⟩ | ⟨_, _, _, h⟩ | ⟨_, hc⟩
    · omega
    · exact h.elim
    · rcases hc with ⟨hne, rfl⟩ | ⟨heq, _⟩
      · refine ⟨⟨Or.inr ⟨by omega, v.propose, by rw [e1]; exact a1, e2⟩, ?_⟩, fun h => absurd e1 h⟩
        intro q _ h1 _
        omega
      · omega

/-- C32 along any chain: whatever the votes, a chain from a sound state (every genesis state is one) stays in sound
states, and at each block the protocol changes only in the switch round, to the pending version, with enough
approvals. -/
theorem C32_history (tbl : Protocols) (ht : TableOk tbl) (s t : UpgradeState) (r : Nat) (a : List UpgradeVote)
    (hs : Sound tbl r s) (h : runVotes tbl s r a = .ok t) : Sound tbl (r + a.length) t := by
  induction a generalizing s r with
  | nil => simp only [runVotes, Res.ok.injEq] at h; rw [← h]; exact hs
  | cons v a ih =>
    rw [runVotes] at h
    obtain ⟨s', h1, h2⟩ := Res.bind_eq_ok.1 h
    have := ih s' (r + 1) (C32_step tbl ht s s' r v hs h1).1 h2
    rw [List.length_cons]
    have e : r + 1 + a.length = r + (a.length + 1) := by omega
    rw [e] at this
    exact this

theorem noProposal_forever (tbl : Protocols) (c : Version) (r : Nat) (votes : List UpgradeVote) (t : UpgradeState)
    (h : runVotes tbl (noProposal c) r votes = .ok t) : t = noProposal c := C31_never_upgrades tbl c r votes t h

/-- One accepted vote while another version is pending. -/
theorem pending_step (tbl : Protocols) (c n : Version) (p : Params) (hp : lookup tbl c = some p) (hcn : n ≠ c)
    (a vb so r : Nat) (v : UpgradeVote) (t : UpgradeState)
    (h : applyUpgradeVote tbl ⟨c, some n, a, vb, so⟩ (r + 1) v = .ok t) :
    v.propose = c ∧ v.delay = 0 ∧ (v.approve = true → r + 1 < vb) ∧
    ((r + 1 = vb ∧ a + (if v.approve then 1 else 0) < p.upgradeThreshold ∧ t = noProposal c) ∨
     ¬ (r + 1 = vb ∧ a + (if v.approve then 1 else 0) < p.upgradeThreshold) ∧
      (r + 1 ≠ so ∧ t = ⟨c, some n, a + (if v.approve then 1 else 0), vb, so⟩ ∨ r + 1 = so ∧ t = noProposal n)) := by
  obtain ⟨s1, s2, ha, hb, hc⟩ := apply_ok tbl _ _ p hp _ _ h
  rcases ha with ⟨b1, b2, rfl⟩ | ⟨_, h, _⟩
  · refine ⟨b1, b2, ?_⟩
    have hs2 : (v.approve = true → r + 1 < vb) ∧ s2 = ⟨c, some n, a + (if v.approve then 1 else 0), vb, so⟩ := by
      rcases hb with ⟨hv, rfl⟩ | ⟨hv, _, h2, rfl⟩
      · simp [hv]
      · simp only [hv, if_true]
        exact ⟨fun _ => h2, trivial⟩
    refine ⟨hs2.1, ?_⟩
    rw [hs2.2] at hc
    rcases hc with ⟨h1, h2, _, rfl⟩ | ⟨_, _, _, h⟩ | ⟨hn, hc⟩
    · exact Or.inl ⟨h1, h2, rfl⟩
    · exact h.elim
    · right
      refine ⟨hn, ?_⟩
      rcases hc with ⟨h1, rfl⟩ | ⟨h1, m, h2, rfl⟩
      · exact Or.inl ⟨h1, rfl⟩
      · simp only [Option.some.injEq] at h2
        subst h2
        exact Or.inr ⟨h1, rfl⟩
  · simp only [Option.some.injEq] at h
    exact absurd h hcn

/-- A chain from a pending proposal that ends in another protocol has passed the switch round with enough approvals
before the deadline. -/
theorem pending_switched (tbl : Protocols) (c n : Version) (p : Params) (hp : lookup tbl c = some p) (hcn : n ≠ c)
    (post : List UpgradeVote) (r a vb so : Nat) (hrv : r < vb ∨ p.upgradeThreshold ≤ a) (hvs : vb ≤ so)
    (hlt : r < so) (t : UpgradeState) (h : runVotes tbl ⟨c, some n, a, vb, so⟩ r post = .ok t) (htc : t.current ≠ c) :
    ∃ mid rest, post = mid ++ rest ∧ r + mid.length = so ∧ t = noProposal n ∧
      p.upgradeThreshold ≤ a + approvalCount (mid.take (vb - (r + 1))) ∧
      approvalCount (mid.drop (vb - (r + 1))) = 0 := by
  induction post generalizing r a with
  | nil => simp only [runVotes, Res.ok.injEq] at h; rw [← h] at htc; exact absurd rfl htc
  | cons v vs ih =>
    rw [runVotes] at h
    obtain ⟨s', h1, h2⟩ := Res.bind_eq_ok.1 h
    obtain ⟨_, _, b3, hb⟩ := pending_step tbl c n p hp hcn a vb so r v s' h1
    rcases hb with ⟨_, _, rfl⟩ | ⟨hn, hb⟩
    · rw [noProposal_forever tbl c _ _ _ h2] at htc
      exact absurd rfl htc
    · -- the ballot counts exactly when it is before the deadline
      have hcount : ∀ mid : List UpgradeVote,
          approvalCount ((v :: mid).take (vb - (r + 1))) =
            approvalCount (mid.take (vb - (r + 1 + 1))) + (if v.approve then 1 else 0) ∧
          approvalCount ((v :: mid).drop (vb - (r + 1))) = approvalCount (mid.drop (vb - (r + 1 + 1))) := by
        intro mid
        by_cases hk : vb - (r + 1) = 0
        · have hk' : vb - (r + 1 + 1) = 0 := by omega
          have hv : v.approve = false := by
            cases hv : v.approve
            · rfl
            · have := b3 hv; omega
          rw [hk, hk', List.take_zero, List.take_zero, List.drop_zero, List.drop_zero, approvalCount_cons, hv]
          exact ⟨rfl, rfl⟩
        · obtain ⟨k, hk1⟩ : ∃ k, vb - (r + 1) = k + 1 := ⟨vb - (r + 1) - 1, by omega⟩
          have hk2 : vb - (r + 1 + 1) = k := by omega
          rw [hk1, hk2, List.take_succ_cons, List.drop_succ_cons, approvalCount_cons]
          exact ⟨rfl, rfl⟩
      rcases hb with ⟨hne, rfl⟩ | ⟨heq, rfl⟩
      · obtain ⟨mid, rest, e1, e2, e3, e4, e5⟩ := ih (r + 1) (a + (if v.approve then 1 else 0)) (by
            rcases hrv with h | h
            · by_cases hv : r + 1 = vb
              · right
                by_contra hcon
                exact hn ⟨hv, by omega⟩
              · left; omega
            · right; omega) (by omega) h2
        refine ⟨v :: mid, rest, by rw [e1]; rfl, by rw [List.length_cons]; omega, e3, ?_, ?_⟩
        · rw [(hcount mid).1]; omega
        · rw [(hcount mid).2]; exact e5
      · refine ⟨[v], vs, rfl, by simpa using heq, noProposal_forever tbl n _ _ _ h2, ?_, ?_⟩
        · rw [(hcount []).1]
          have : approvalCount (([] : List UpgradeVote).take (vb - (r + 1 + 1))) = 0 := by simp [approvalCount]
          rcases hrv with h | h
          · by_contra hcon
            exact hn ⟨by omega, by omega⟩
          · omega
        · rw [(hcount []).2]; simp [approvalCount]

/-- C32 in terms of the votes alone: if a chain that starts without scheduled upgrade ends in another protocol, then one
of its blocks proposed exactly that protocol with a delay in the allowed window, the blocks of the voting window, the
proposing one included, approved it at least threshold times, and the chain has reached the announced round. -/
theorem C32_switch_needs_votes (tbl : Protocols) (ht : TableOk tbl) (c : Version) (p : Params)
    (hp : lookup tbl c = some p) (votes : List UpgradeVote) (r : Nat) (t : UpgradeState)
    (h : runVotes tbl (openState c) r votes = .ok t) (htc : t.current ≠ c) :
    ∃ pre v mid rest, votes = pre ++ v :: (mid ++ rest) ∧ v.propose = t.current ∧
      p.minUpgradeWaitRounds ≤ v.delay ∧ v.delay ≤ p.maxUpgradeWaitRounds ∧
      mid.length = p.upgradeVoteRounds + effDelay p v ∧
      p.upgradeThreshold ≤ approvalCount (v :: mid.take (p.upgradeVoteRounds - 1)) ∧
      (∀ u ∈ pre, u.propose = c ∧ u.approve = false) := by
  obtain ⟨hV, hD⟩ := ht _ _ hp
  induction votes generalizing r with
  | nil => simp only [runVotes, Res.ok.injEq] at h; rw [← h] at htc; exact absurd rfl htc
  | cons v vs ih =>
    rw [runVotes] at h
    obtain ⟨s', h1, h2⟩ := Res.bind_eq_ok.1 h
    obtain ⟨s1, s2, ha, hb, hc⟩ := apply_ok tbl _ _ p hp _ _ h1
    rcases ha with ⟨b1, _, rfl⟩ | ⟨b1, _, b3, b4, rfl⟩
    · -- not a proposal: the state stays open
      have hv : v.approve = false ∧ s2 = openState c := by
        rcases hb with h | ⟨_, h, _⟩
        · exact h
        · exact absurd rfl h
      rw [hv.2] at hc
      have hs' : s' = openState c := by
        rcases hc with ⟨h, _⟩ | ⟨_, _, _, h⟩ | ⟨_, hc⟩
        · simp [openState] at h
        · exact h.elim
        · rcases hc with ⟨_, h⟩ | ⟨h, _⟩
          · exact h
          · simp [openState] at h
      rw [hs'] at h2
      obtain ⟨pre, w, mid, rest, e1, e2, e3, e4, e5, e6, e7⟩ := ih _ h2
      refine ⟨v :: pre, w, mid, rest, by rw [e1]; rfl, e2, e3, e4, e5, e6, ?_⟩
      intro u hu
      rcases List.mem_cons.1 hu with rfl | hu
      · exact ⟨b1, hv.1⟩
      · exact e7 u hu
    · -- the proposal
      have hD' : 0 < effDelay p v := by rw [effDelay]; split <;> omega
      have hs2 : s2 = ⟨c, some v.propose, if v.approve then 1 else 0, r + 1 + p.upgradeVoteRounds,
          r + 1 + p.upgradeVoteRounds + effDelay p v⟩ := by
        rcases hb with ⟨hv, rfl⟩ | ⟨hv, _, _, rfl⟩ <;> simp [hv, openState]
      rw [hs2] at hc
      have hs' : s' = s2 := by
        rcases hc with ⟨h, _⟩ | ⟨_, _, _, h⟩ | ⟨_, hc⟩
        · simp only at h; omega
        · exact h.elim
        · rcases hc with ⟨_, h⟩ | ⟨h, _⟩
          · rw [hs2]; exact h
          · simp only at h; omega
      rw [hs', hs2] at h2
      obtain ⟨mid, rest, e1, e2, e3, e4, _⟩ := pending_switched tbl c v.propose p hp b1 vs (r + 1) _ _ _ (Or.inl (by omega))
        (by omega) (by omega) t h2 htc
      refine ⟨[], v, mid, rest, by rw [e1]; rfl, by rw [e3]; rfl, b3, b4, by omega, ?_, by simp⟩
      have hk : r + 1 + p.upgradeVoteRounds - (r + 1 + 1) = p.upgradeVoteRounds - 1 := by omega
      rw [hk] at e4
      rw [approvalCount_cons]
      omega

example : TableOk toyTable := by
  intro v p h
  have hall : toyTable.all (fun e =>
      decide (0 < e.2.upgradeVoteRounds) && decide (0 < e.2.defaultUpgradeWaitRounds)) = true := by decide +kernel
  have hnd : (toyTable.map (·.1)).Nodup := by decide
  simpa using List.all_eq_true.1 hall (v, p) ((lookup_eq_some hnd v p).1 h)

/-! ## C33: counting approvals -/

/-- C33: while a proposal is pending, its approval count is the number of approving blocks since and including the
proposing one. -/
theorem C33_count_exact (tbl : Protocols) (ht : TableOk tbl) (s t : UpgradeState) (r : Nat) (v : UpgradeVote)
    (post : List UpgradeVote) (hv : v.propose ≠ s.current) (h : runVotes tbl s r (v :: post) = .ok t)
    (hpend : t.next ≠ none) :
    t.next = some v.propose ∧ t.current = s.current ∧ t.approvals = approvalCount (v :: post) := by
  rw [runVotes] at h
  obtain ⟨s', h1, h2⟩ := Res.bind_eq_ok.1 h
  obtain ⟨p, hp⟩ := apply_known _ _ _ _ _ h1
  obtain ⟨hV, hD⟩ := ht _ _ hp
  have key : ∀ (post : List UpgradeVote) (c n : Version) (a vb so r : Nat) (q : Params), lookup tbl c = some q → n ≠ c →
      runVotes tbl ⟨c, some n, a, vb, so⟩ r post = .ok t →
      t.next = some n ∧ t.current = c ∧ t.approvals = a + approvalCount post := by
    intro post
    induction post with
    | nil =>
      intro c n a vb so r q _ _ h
      simp only [runVotes, Res.ok.injEq] at h
      rw [← h]; exact ⟨rfl, rfl, rfl⟩
    | cons w ws ih =>
      intro c n a vb so r q hq hcn h
      rw [runVotes] at h
      obtain ⟨u, g1, g2⟩ := Res.bind_eq_ok.1 h
      obtain ⟨_, _, _, hb⟩ := pending_step tbl c n q hq hcn a vb so r w u g1
      rcases hb with ⟨_, _, rfl⟩ | ⟨_, hb⟩
      · rw [noProposal_forever tbl c _ _ _ g2] at hpend; exact absurd rfl hpend
      · rcases hb with ⟨_, rfl⟩ | ⟨_, rfl⟩
        · obtain ⟨e1, e2, e3⟩ := ih _ _ _ _ _ _ q hq hcn g2
          exact ⟨e1, e2, by rw [e3, approvalCount_cons]; omega⟩
        · rw [noProposal_forever tbl n _ _ _ g2] at hpend; exact absurd rfl hpend
  obtain ⟨s1, s2, ha, hb, hc⟩ := apply_ok tbl _ _ p hp _ _ h1
  rcases ha with ⟨b1, _, _⟩ | ⟨b1, _, _, _, rfl⟩
  · exact absurd b1 hv
  · have hs2 : s2 = ⟨s.current, some v.propose, if v.approve then 1 else 0, r + 1 + p.upgradeVoteRounds,
        r + 1 + p.upgradeVoteRounds + effDelay p v⟩ := by
      rcases hb with ⟨hv, rfl⟩ | ⟨hv, _, _, rfl⟩ <;> simp [hv]
    rw [hs2] at hc
    have hs' : s' = s2 := by
      rcases hc with ⟨h, _⟩ | ⟨_, _, _, h⟩ | ⟨_, hc⟩
      · simp only at h; omega
      · exact h.elim
      · rcases hc with ⟨_, h⟩ | ⟨h, _⟩
        · rw [hs2]; exact h
        · simp only at h; omega
    rw [hs', hs2] at h2
    obtain ⟨e1, e2, e3⟩ := key post _ _ _ _ _ _ p hp b1 h2
    exact ⟨e1, e2, by rw [e3, approvalCount_cons]; omega⟩

/-- C33: an approval with nothing to approve, or at or after the deadline, is rejected; in every state. -/
theorem C33_late_rejected (tbl : Protocols) (s t : UpgradeState) (r : Nat) (v : UpgradeVote) (hv : v.propose = s.current)
    (ha : v.approve = true) (hr : s.voteBefore ≤ r ∨ s.next = some s.current) :
    applyUpgradeVote tbl s r v ≠ .ok t := by
  intro h
  obtain ⟨p, hp⟩ := apply_known _ _ _ _ _ h
  obtain ⟨s1, s2, h1, h2, _⟩ := apply_ok tbl _ _ p hp _ _ h
  rcases h1 with ⟨_, _, rfl⟩ | ⟨h1, _⟩
  · rcases h2 with ⟨h2, _⟩ | ⟨_, h3, h4, _⟩
    · rw [ha] at h2; cases h2
    · rcases hr with hr | hr
      · omega
      · exact h3 hr
  · exact h1 hv

/-- C33: never more approvals than rounds of the voting window. -/
theorem C33_bounded_by_window (tbl : Protocols) (ht : TableOk tbl) (s t : UpgradeState) (r : Nat) (v : UpgradeVote)
    (post : List UpgradeVote) (p : Params) (hp : lookup tbl s.current = some p) (hv : v.propose ≠ s.current)
    (h : runVotes tbl s r (v :: post) = .ok t) (hpend : t.next ≠ none) : t.approvals ≤ p.upgradeVoteRounds := by
  obtain ⟨hV, hD⟩ := ht _ _ hp
  rw [(C33_count_exact tbl ht s t r v post hv h hpend).2.2]
  rw [runVotes] at h
  obtain ⟨s', h1, h2⟩ := Res.bind_eq_ok.1 h
  have key : ∀ (post : List UpgradeVote) (c n : Version) (a vb so r : Nat), lookup tbl c = some p → n ≠ c →
      runVotes tbl ⟨c, some n, a, vb, so⟩ r post = .ok t → approvalCount post ≤ vb - (r + 1) := by
    intro post
    induction post with
    | nil => intros; simp [approvalCount]
    | cons w ws ih =>
      intro c n a vb so r hq hcn h
      rw [runVotes] at h
      obtain ⟨u, g1, g2⟩ := Res.bind_eq_ok.1 h
      obtain ⟨_, _, b3, hb⟩ := pending_step tbl c n p hq hcn a vb so r w u g1
      rcases hb with ⟨_, _, rfl⟩ | ⟨_, hb⟩
      · rw [noProposal_forever tbl c _ _ _ g2] at hpend; exact absurd rfl hpend
      · rcases hb with ⟨_, rfl⟩ | ⟨_, rfl⟩
        · have := ih _ _ _ _ _ _ hq hcn g2
          rw [approvalCount_cons]
          cases hw : w.approve
          · simp; omega
          · have := b3 hw
            simp; omega
        · rw [noProposal_forever tbl n _ _ _ g2] at hpend; exact absurd rfl hpend
  obtain ⟨s1, s2, ha, hb, hc⟩ := apply_ok tbl _ _ p hp _ _ h1
  rcases ha with ⟨b1, _, _⟩ | ⟨b1, _, _, _, rfl⟩
  · exact absurd b1 hv
  · have hs2 : s2 = ⟨s.current, some v.propose, if v.approve then 1 else 0, r + 1 + p.upgradeVoteRounds,
        r + 1 + p.upgradeVoteRounds + effDelay p v⟩ := by
      rcases hb with ⟨hv, rfl⟩ | ⟨hv, _, _, rfl⟩ <;> simp [hv]
    rw [hs2] at hc
    have hs' : s' = s2 := by
      rcases hc with ⟨h, _⟩ | ⟨_, _, _, h⟩ | ⟨_, hc⟩
      · simp only at h; omega
      · exact h.elim
      · rcases hc with ⟨_, h⟩ | ⟨h, _⟩
        · rw [hs2]; exact h
        · simp only at h; omega
    rw [hs', hs2] at h2
    have := key post _ _ _ _ _ _ hp b1 h2
    rw [approvalCount_cons]
    cases v.approve <;> simp <;> omega

example : runVotes toyTable (openState .v29) 7 [⟨.v30, 1, true⟩, ⟨.v29, 0, true⟩, ⟨.v29, 0, false⟩] =
    .ok ⟨.v29, some .v30, 2, 11, 12⟩ := by decide +kernel

/-! ## C79: the announced protocol version -/

/-- C79: an announced upgrade comes true: the announced version is never missing, no chain changes protocol before the
announced round, and every chain that reaches the announced round runs the announced version. -/
theorem C79_upgrade_announced (tbl : Protocols) (ht : TableOk tbl) (s : UpgradeState) (r sw : Nat) (n : Option Version)
    (hs : Sound tbl r s) (h : nextVersionInfo r s = .ok (n, sw, true)) (hbranch : s.voteBefore ≤ r ∧ r < s.switchOn) :
    ∃ m, n = some m ∧ m ≠ s.current ∧ r < sw ∧
      ∀ votes t, runVotes tbl s r votes = .ok t →
        (r + votes.length < sw → t.current = s.current) ∧ (r + votes.length = sw → t.current = m) := by
  rw [nextVersionInfo, if_pos (by omega)] at h
  simp only [Res.ok.injEq, Prod.mk.injEq, and_true] at h
  obtain ⟨rfl, rfl⟩ := h
  obtain ⟨h1, h2⟩ := hs
  rcases h1 with h1 | ⟨_, m, hm, hn⟩
  · omega
  · refine ⟨m, hn, hm, by omega, ?_⟩
    intro votes t hrun
    obtain ⟨c, nx, a, vb, so⟩ := s
    simp only at *
    subst hn
    clear h2
    have hvb := hbranch.1
    have hso := hbranch.2
    clear hbranch
    induction votes generalizing r a with
    | nil =>
      simp only [runVotes, Res.ok.injEq] at hrun
      rw [← hrun]
      exact ⟨fun _ => rfl, fun h => by simp only [List.length_nil] at h; omega⟩
    | cons v vs ih =>
      rw [runVotes] at hrun
      obtain ⟨u, g1, g2⟩ := Res.bind_eq_ok.1 hrun
      obtain ⟨p, hp⟩ := apply_known _ _ _ _ _ g1
      obtain ⟨_, _, _, hb⟩ := pending_step tbl c m p hp hm a vb so r v u g1
      rw [List.length_cons]
      rcases hb with ⟨hx, _, _⟩ | ⟨_, hb⟩
      · omega
      · rcases hb with ⟨hne, rfl⟩ | ⟨heq, rfl⟩
        · obtain ⟨i1, i2⟩ := ih (r + 1) _ g2 (by omega) (by omega)
          exact ⟨fun h => i1 (by omega), fun h => i2 (by omega)⟩
        · rw [noProposal_forever tbl m _ _ _ g2]
          exact ⟨fun h => by omega, fun _ => rfl⟩

/-- C79: whatever version is announced for the next round is the one the next block runs. -/
theorem C79_next_round (tbl : Protocols) (ht : TableOk tbl) (s t : UpgradeState) (r : Nat) (hs : Sound tbl r s)
    (v : UpgradeVote) (n : Option Version) (h : nextVersionInfo r s = .ok (n, r + 1, true))
    (ha : applyUpgradeVote tbl s (r + 1) v = .ok t) : n = some t.current := by
  by_cases hb : s.voteBefore ≤ r ∧ r < s.switchOn
  · obtain ⟨m, rfl, _, _, hm⟩ := C79_upgrade_announced tbl ht s r _ n hs h hb
    have hrun : runVotes tbl s r [v] = .ok t := by rw [runVotes, ha, Res.ok_bind, runVotes]
    rw [(hm [v] t hrun).2 rfl]
  · have hcur : t.current = s.current := by
      by_contra hcon
      have := ((C32_step tbl ht s t r v hs ha).2 hcon).1
      rcases hs.1 with h | h <;> omega
    rw [nextVersionInfo, if_neg (by omega), addU64] at h
    split at h
    · simp only [Res.ok_bind, Res.ok.injEq, Prod.mk.injEq] at h
      rw [hcur, ← h.1]
    · simp at h

/-- C79: something is announced for every round that has a successor. -/
theorem C79_total (s : UpgradeState) (r : Nat) (hr : r + 1 < u64Lim) : ∃ n sw, nextVersionInfo r s = .ok (n, sw, true) := by
  rw [nextVersionInfo]
  split
  · exact ⟨_, _, rfl⟩
  · rw [addU64, if_pos (by omega)]
    exact ⟨_, _, rfl⟩

example : nextVersionInfo 11 ⟨.v29, some .v30, 2, 11, 14⟩ = .ok (some .v30, 14, true) ∧
    Sound toyTable 11 ⟨.v29, some .v30, 2, 11, 14⟩ := by
  refine ⟨by decide, Or.inr ⟨by decide, .v30, by decide, rfl⟩, ?_⟩
  intro p hp _ _
  have : (lookup toyTable .v29).map (·.upgradeThreshold) = some 2 := by decide +kernel
  rw [hp] at this
  simp only [Option.map_some, Option.some.injEq] at this
  rw [this]
  exact Nat.le_refl 2

theorem toyTable_ok : TableOk toyTable := by
  intro v p h
  have hall : toyTable.all (fun e =>
      decide (0 < e.2.upgradeVoteRounds) && decide (0 < e.2.defaultUpgradeWaitRounds)) = true := by decide +kernel
  rw [List.all_eq_true] at hall
  have := hall (v, p) (by
    simp only [lookup] at h
    rcases hf : toyTable.find? (fun e => e.1 = v) with _ | e
    · simp [hf] at h
    · have h1 := List.find?_some hf
      have h2 := List.mem_of_find?_eq_some hf
      simp [hf] at h h1
      rw [← h, ← h1]
      exact h2)
  simpa using this

/-- A state with an open proposal, and one where it has passed. -/
def toyOpen : UpgradeState := ⟨.v29, some .v30, 1, 11, 12⟩
def toyPassed : UpgradeState := ⟨.v29, some .v30, 2, 11, 14⟩

theorem toyOpen_sound : Sound toyTable 8 toyOpen :=
  ⟨Or.inr ⟨by decide, .v30, by decide, rfl⟩, fun _ _ h _ => absurd h (by decide)⟩

theorem toyPassed_sound : Sound toyTable 11 toyPassed := by
  refine ⟨Or.inr ⟨by decide, .v30, by decide, rfl⟩, ?_⟩
  intro p hp _ _
  have : (lookup toyTable .v29).map (·.upgradeThreshold) = some 2 := by decide +kernel
  rw [show lookup toyTable .v29 = some p from hp] at this
  simp only [Option.map_some, Option.some.injEq] at this
  show p.upgradeThreshold ≤ 2
  omega

/-- A case of `C31_proposal_always_rejected`, `C31_never_upgrades` and `C31_build_iff`. -/
example (p : Params) (hp : lookup builtin .v29 = some p) :
    applyUpgradeVote builtin (noProposal .v29) 5 ⟨.v30, 10000, false⟩ = .err (.competingProposal, noProposal .v29) ∧
    (∀ t, runVotes builtin (noProposal .v29) 4 [⟨.v29, 0, false⟩, ⟨.v29, 0, false⟩] = .ok t → t = noProposal .v29) ∧
    ¬ ∃ x, processUpgradeParams builtin 5 (noProposal .v29) = .ok x := by
  refine ⟨C31_proposal_always_rejected _ _ p hp _ _ (by decide), fun t ht => C31_never_upgrades _ _ _ _ _ ht, fun h => ?_⟩
  have hu : ∀ u ∈ p.approvedUpgrades, u.1 ≠ Version.v29 := by
    have : (lookup builtin .v29).map (fun p => p.approvedUpgrades.all fun u => decide (u.1 ≠ Version.v29)) = some true := by
      decide +kernel
    rw [hp] at this
    intro u hu
    exact of_decide_eq_true (List.all_eq_true.1 (Option.some.inj this) u hu)
  exact absurd ((C31_build_iff builtin .v29 p hp hu 5 (by decide)).1 h).1 (by decide)

/-- A case of `C32_step` and `C32_history`: an approval, and the rounds until the switch. -/
example : Sound toyTable 9 ⟨.v29, some .v30, 2, 11, 12⟩ ∧ Sound toyTable 12 (noProposal .v30) :=
  ⟨(C32_step toyTable toyTable_ok toyOpen _ 8 ⟨.v29, 0, true⟩ toyOpen_sound (by decide +kernel)).1,
    C32_history toyTable toyTable_ok toyOpen _ 8 [⟨.v29, 0, true⟩, ⟨.v29, 0, false⟩, ⟨.v29, 0, false⟩, ⟨.v29, 0, false⟩]
      toyOpen_sound (by decide +kernel)⟩

/-- A case of `C33_count_exact` and `C33_late_rejected`. -/
example : (2 : Nat) = approvalCount [⟨.v30, 1, true⟩, ⟨.v29, 0, true⟩, ⟨.v29, 0, false⟩] ∧
    ∀ t, applyUpgradeVote toyTable toyPassed 11 ⟨.v29, 0, true⟩ ≠ .ok t :=
  ⟨(C33_count_exact toyTable toyTable_ok (openState .v29) ⟨.v29, some .v30, 2, 11, 12⟩ 7 ⟨.v30, 1, true⟩
    [⟨.v29, 0, true⟩, ⟨.v29, 0, false⟩] (by decide) (by decide +kernel) (by decide)).2.2,
    fun t => C33_late_rejected toyTable toyPassed t 11 ⟨.v29, 0, true⟩ rfl rfl (.inl (by decide))⟩

/-- A case of `C79_upgrade_announced` and `C79_next_round`: version 30 is announced for round 14 and comes then. -/
example : (∀ votes t, runVotes toyTable toyPassed 11 votes = .ok t → votes.length = 3 → t.current = .v30) ∧
    ∀ t, applyUpgradeVote toyTable ⟨.v29, some .v30, 2, 11, 14⟩ 14 ⟨.v29, 0, false⟩ = .ok t → t.current = .v30 := by
  refine ⟨fun votes t h hl => ?_, fun t h => ?_⟩
  · obtain ⟨m, hm, _, _, h4⟩ := C79_upgrade_announced toyTable toyTable_ok toyPassed 11 14 (some .v30) toyPassed_sound
      (by decide) (by decide)
    cases hm
    exact (h4 votes t h).2 (by omega)
  · have hs : Sound toyTable 13 toyPassed := ⟨toyPassed_sound.1, fun p hp h1 h2 => toyPassed_sound.2 p hp (by decide) (by decide)⟩
    exact (Option.some.inj (C79_next_round toyTable toyTable_ok toyPassed t 13 hs ⟨.v29, 0, false⟩ (some .v30) (by decide) h)).symm

end Verif.Props
