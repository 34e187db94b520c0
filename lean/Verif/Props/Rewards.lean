import Verif.Model.Block
import Verif.Props.Balance
import Mathlib.Tactic.Ring
/-!
# Properties of the rewards state (C36, C37, C69)
-/

namespace Verif.Props
open Verif Verif.Consensus Verif.Block

/-- What a round sees: protocol, balance of the incentive pool and number of reward units. -/
structure RoundIn where
  proto : Params
  pool : Nat
  units : Nat

/-- The reward states after rounds `r + 1, r + 2, ...`. -/
def rewardRun : RewardsState → Nat → List RoundIn → Res Unit (List RewardsState)
  | _, _, [] => .ok []
  | s, r, i :: is => do
    let t ← nextState s (r + 1) i.proto i.pool i.units
    let ts ← rewardRun t (r + 1) is
    .ok (t :: ts)

/-- The micro algos handed out: each increase of the level is paid once per reward unit of its round. -/
def paidOut : RewardsState → List (RoundIn × RewardsState) → Nat
  | _, [] => 0
  | s, (i, t) :: rest => (t.level - s.level) * i.units + paidOut t rest

/-- The sum of the rates of the rounds with reward units. -/
def ratesDue : RewardsState → List (RoundIn × RewardsState) → Nat
  | _, [] => 0
  | s, (i, t) :: rest => (if i.units = 0 then 0 else s.rate) + ratesDue t rest

/-- In no round do the rewards or the level leave 64 bits. -/
def FitsRun : RewardsState → List (RoundIn × RewardsState) → Prop
  | _, [] => True
  | s, (i, t) :: rest => s.rate + s.residue < u64Lim ∧ s.level + (s.rate + s.residue) / i.units < u64Lim ∧ FitsRun t rest

/-! ## C36: conservation -/

theorem nextState_ok (s t : RewardsState) (r pool units : Nat) (p : Params) (h : nextState s r p pool units = .ok t) :
    (t.level = s.level ∧ t.residue = s.residue ∧
      (units = 0 ∨ u64Lim ≤ s.rate + s.residue ∨ u64Lim ≤ s.level + (s.rate + s.residue) / units)) ∨
    (t.level = s.level + (s.rate + s.residue) / units ∧ t.residue = (s.rate + s.residue) % units ∧ units ≠ 0 ∧
      s.rate + s.residue < u64Lim ∧ s.level + (s.rate + s.residue) / units < u64Lim) := by
  rw [nextState] at h
  obtain ⟨n, h1, h2⟩ := Res.bind_eq_ok.1 h
  have hn : n.level = s.level ∧ n.residue = s.residue := by
    rw [refreshRate] at h1
    split at h1
    · obtain ⟨rate, _, h1⟩ := Res.bind_eq_ok.1 h1
      obtain ⟨round, _, h1⟩ := Res.bind_eq_ok.1 h1
      simp only [Res.ok.injEq] at h1
      rw [← h1]
      exact ⟨rfl, rfl⟩
    · simp only [Res.ok.injEq] at h1
      rw [← h1]
      exact ⟨rfl, rfl⟩
  split at h2
  · rename_i hu
    simp only [Res.ok.injEq] at h2
    subst h2
    exact Or.inl ⟨hn.1, hn.2, Or.inl hu⟩
  · rename_i hu
    rw [checkedAdd64] at h2
    by_cases h3 : s.rate + s.residue < u64Lim
    · rw [if_pos h3] at h2
      simp only at h2
      rw [checkedAdd64] at h2
      by_cases h4 : s.level + (s.rate + s.residue) / units < u64Lim
      · rw [if_pos h4] at h2
        simp only [Res.ok.injEq] at h2
        subst h2
        exact Or.inr ⟨rfl, rfl, hu, h3, h4⟩
      · rw [if_neg h4] at h2
        simp only [Res.ok.injEq] at h2
        subst h2
        exact Or.inl ⟨hn.1, hn.2, Or.inr (Or.inr (by omega))⟩
    · rw [if_neg h3] at h2
      simp only [Res.ok.injEq] at h2
      subst h2
      exact Or.inl ⟨hn.1, hn.2, Or.inr (Or.inl (by omega))⟩

/-- C36, one round: the level increase times the reward units plus the new residue is the rate plus the old residue,
and the new residue is below the number of units. -/
theorem C36_round_conserves (s t : RewardsState) (r pool units : Nat) (p : Params)
    (h : nextState s r p pool units = .ok t) (hu : units ≠ 0) (h1 : s.rate + s.residue < u64Lim)
    (h2 : s.level + (s.rate + s.residue) / units < u64Lim) :
    s.level ≤ t.level ∧ (t.level - s.level) * units + t.residue = s.rate + s.residue ∧ t.residue < units := by
  rcases nextState_ok s t r pool units p h with ⟨_, _, h3⟩ | ⟨e1, e2, _⟩
  · omega
  · refine ⟨by rw [e1]; exact Nat.le_add_right _ _, ?_, by rw [e2]; exact Nat.mod_lt _ (by omega)⟩
    rw [e1, e2, Nat.add_sub_cancel_left, Nat.mul_comm]
    exact Nat.div_add_mod _ _

/-- C36: without reward units, or if the sums leave 64 bits, level and residue are kept. -/
theorem C36_otherwise_kept (s t : RewardsState) (r pool units : Nat) (p : Params)
    (h : nextState s r p pool units = .ok t)
    (hno : units = 0 ∨ u64Lim ≤ s.rate + s.residue ∨ u64Lim ≤ s.level + (s.rate + s.residue) / units) :
    t.level = s.level ∧ t.residue = s.residue := by
  rcases nextState_ok s t r pool units p h with ⟨e1, e2, _⟩ | ⟨_, _, h3, h4, h5⟩
  · exact ⟨e1, e2⟩
  · omega

/-- C36 over any number of rounds: what has been paid out plus the final residue is the sum of the rates plus the initial
residue. -/
theorem C36_conserves (s : RewardsState) (r : Nat) (ins : List RoundIn) (ts : List RewardsState)
    (h : rewardRun s r ins = .ok ts) (hf : FitsRun s (ins.zip ts)) :
    paidOut s (ins.zip ts) + ((ts.getLast?).getD s).residue = ratesDue s (ins.zip ts) + s.residue := by
  induction ins generalizing s r ts with
  | nil =>
    simp only [rewardRun, Res.ok.injEq] at h
    subst h
    simp [paidOut, ratesDue]
  | cons i is ih =>
    rw [rewardRun] at h
    obtain ⟨t, h1, h⟩ := Res.bind_eq_ok.1 h
    obtain ⟨us, h2, h⟩ := Res.bind_eq_ok.1 h
    simp only [Res.ok.injEq] at h
    subst h
    simp only [List.zip_cons_cons, FitsRun] at hf
    have hrest := ih t (r + 1) us h2 hf.2.2
    simp only [List.zip_cons_cons, paidOut, ratesDue]
    have hlast : (((t :: us).getLast?).getD s) = (us.getLast?).getD t := by
      cases us <;> simp [List.getLast?_cons]
    rw [hlast]
    by_cases hu : i.units = 0
    · obtain ⟨e1, e2⟩ := C36_otherwise_kept s t _ _ _ _ h1 (Or.inl hu)
      rw [if_pos hu, hu]
      omega
    · obtain ⟨_, e2, _⟩ := C36_round_conserves s t _ _ _ _ h1 hu hf.1 hf.2.1
      rw [if_neg hu]
      omega

/-- C36 without any assumption: levels never fall, and never is more paid out than the rates and the residue provide. -/
theorem C36_never_overpays (s : RewardsState) (r : Nat) (ins : List RoundIn) (ts : List RewardsState)
    (h : rewardRun s r ins = .ok ts) :
    paidOut s (ins.zip ts) + ((ts.getLast?).getD s).residue ≤ ratesDue s (ins.zip ts) + s.residue ∧
    ∀ t ∈ ts, s.level ≤ t.level := by
  induction ins generalizing s r ts with
  | nil =>
    simp only [rewardRun, Res.ok.injEq] at h
    subst h
    simp [paidOut, ratesDue]
  | cons i is ih =>
    rw [rewardRun] at h
    obtain ⟨t, h1, h⟩ := Res.bind_eq_ok.1 h
    obtain ⟨us, h2, h⟩ := Res.bind_eq_ok.1 h
    simp only [Res.ok.injEq] at h
    subst h
    obtain ⟨hrest, hmono⟩ := ih t (r + 1) us h2
    simp only [List.zip_cons_cons, paidOut, ratesDue]
    have hlast : (((t :: us).getLast?).getD s) = (us.getLast?).getD t := by
      cases us <;> simp [List.getLast?_cons]
    rw [hlast]
    have hstep : s.level ≤ t.level ∧
        (t.level - s.level) * i.units + t.residue ≤ (if i.units = 0 then 0 else s.rate) + s.residue := by
      rcases nextState_ok s t _ _ _ _ h1 with ⟨e1, e2, _⟩ | ⟨e1, e2, e3, e4, e5⟩
      · refine ⟨by omega, ?_⟩
        rw [e1, Nat.sub_self, Nat.zero_mul]
        omega
      · obtain ⟨f1, f2, _⟩ := C36_round_conserves s t _ _ _ _ h1 e3 e4 e5
        rw [if_neg e3]
        exact ⟨f1, by omega⟩
    refine ⟨by omega, ?_⟩
    intro u hu
    rcases List.mem_cons.1 hu with rfl | hu
    · exact hstep.1
    · exact Nat.le_trans hstep.1 (hmono u hu)

/-- C36: the next state exists whenever the refresh interval is not zero and the rounds fit 64 bits. -/
theorem C36_no_crash (s : RewardsState) (r pool units : Nat) (p : Params) (hi : p.rewardsRateRefreshInterval ≠ 0)
    (hr : r + p.rewardsRateRefreshInterval < u64Lim) : ∃ t, nextState s r p pool units = .ok t := by
  rw [nextState]
  have : ∃ n, refreshRate s r p pool = .ok n := by
    rw [refreshRate]
    split
    · simp only [divU, addU64, if_neg hi, if_pos hr, Res.ok_bind]
      exact ⟨_, rfl⟩
    · exact ⟨_, rfl⟩
  obtain ⟨n, hn⟩ := this
  rw [hn, Res.ok_bind]
  split
  · exact ⟨_, rfl⟩
  · split
    · exact ⟨_, rfl⟩
    · split <;> exact ⟨_, rfl⟩

/-- A state with rate 10 and residue 5. -/
def toyRewards : RewardsState := ⟨List.replicate 32 1, List.replicate 32 2, 7, 10, 5, 2⟩

example : ∃ a b, rewardRun toyRewards 0 [⟨v30Base, 1000000, 4⟩, ⟨v30Base, 1000000, 7⟩] = .ok [a, b] ∧
    (a.level, a.residue, a.rate) = (10, 3, 10) ∧ (b.level, b.residue, b.rate) = (11, 6, 2) := by
  refine ⟨⟨List.replicate 32 1, List.replicate 32 2, 10, 10, 3, 2⟩,
    ⟨List.replicate 32 1, List.replicate 32 2, 11, 2, 6, 500002⟩, ?_, rfl, rfl⟩
  decide +kernel

/-! ## C37: the rate and the pool -/

/-- What the pool must keep: the minimum balance, and the owed residue where the protocol says so. -/
def reserve (p : Params) (residue : Nat) : Nat := p.minBalance + if p.pendingResidueRewards then residue else 0

theorem refresh_ok (s t : RewardsState) (r pool units : Nat) (p : Params) (h : nextState s r p pool units = .ok t)
    (hr : r = s.recalculationRound) :
    p.rewardsRateRefreshInterval ≠ 0 ∧
    t.rate = (checkedAdd64 pool (maxSpentOver p s.residue pool)).getD 0 / p.rewardsRateRefreshInterval ∧
    t.recalculationRound = r + p.rewardsRateRefreshInterval := by
  rw [nextState] at h
  obtain ⟨n, h1, h2⟩ := Res.bind_eq_ok.1 h
  have hn : t.rate = n.rate ∧ t.recalculationRound = n.recalculationRound := by
    split at h2
    · simp only [Res.ok.injEq] at h2
      rw [← h2]; exact ⟨rfl, rfl⟩
    · split at h2
      · simp only [Res.ok.injEq] at h2
        rw [← h2]; exact ⟨rfl, rfl⟩
      · split at h2 <;>
        · simp only [Res.ok.injEq] at h2
          rw [← h2]; exact ⟨rfl, rfl⟩
  rw [refreshRate, if_pos hr] at h1
  obtain ⟨rate, h3, h1⟩ := Res.bind_eq_ok.1 h1
  obtain ⟨round, h4, h1⟩ := Res.bind_eq_ok.1 h1
  simp only [Res.ok.injEq] at h1
  rw [divU] at h3
  split at h3
  · simp at h3
  · rename_i hi
    simp only [Res.ok.injEq] at h3
    rw [addU64] at h4
    split at h4
    · simp only [Res.ok.injEq] at h4
      rw [hn.1, hn.2, ← h1]
      exact ⟨hi, h3.symm, h4.symm⟩
    · simp at h4

/-- C37 is violated: the reserve is added to the pool balance instead of subtracted, so the rate computed for every
refresh exceeds the right one: it promises at least the whole pool balance plus the reserve, up to one interval. -/
theorem C37_reserve_is_added (s t : RewardsState) (r pool units : Nat) (p : Params)
    (h : nextState s r p pool units = .ok t) (hr : r = s.recalculationRound)
    (hfit : pool + reserve p s.residue < u64Lim) :
    t.rate * p.rewardsRateRefreshInterval ≤ pool + reserve p s.residue ∧
    pool + reserve p s.residue < (t.rate + 1) * p.rewardsRateRefreshInterval := by
  obtain ⟨hi, hrate, _⟩ := refresh_ok s t r pool units p h hr
  have hm : maxSpentOver p s.residue pool = reserve p s.residue := by
    rw [maxSpentOver, reserve]
    rw [reserve] at hfit
    split
    · rename_i hp
      rw [if_pos hp] at hfit
      rw [checkedAdd64, if_pos (by omega)]
    · simp
  rw [hm, checkedAdd64, if_pos hfit, Option.getD_some] at hrate
  rw [hrate]
  refine ⟨Nat.div_mul_le_self _ _, ?_⟩
  exact Nat.lt_mul_of_div_lt (Nat.lt_succ_self _) (by omega)

/-- C37 is violated for every protocol whose reserve is at least the refresh interval: every refresh promises more than
the whole pool. -/
theorem C37_always_overpromises (s t : RewardsState) (r pool units : Nat) (p : Params)
    (h : nextState s r p pool units = .ok t) (hr : r = s.recalculationRound)
    (hfit : pool + reserve p s.residue < u64Lim) (hbig : p.rewardsRateRefreshInterval ≤ reserve p s.residue) :
    pool < t.rate * p.rewardsRateRefreshInterval := by
  have := (C37_reserve_is_added s t r pool units p h hr hfit).2
  rw [Nat.add_mul, Nat.one_mul] at this
  omega

/-- C37 is violated for the newest built-in protocol: a pool of 0.4 algos promises 0.5 algos. -/
theorem C37_violated : ∃ t, nextState { toyRewards with residue := 0 } 2 v30Base 400000 1 = .ok t ∧
    400000 < t.rate * v30Base.rewardsRateRefreshInterval := by
  refine ⟨⟨List.replicate 32 1, List.replicate 32 2, 17, 1, 0, 500002⟩, by decide +kernel, by decide +kernel⟩

/-- C37, what does hold: the promise never exceeds the pool by more than the reserve (or the pool
itself, should the reserve leave 64 bits), and a pool so large that the sum
leaves 64 bits promises nothing. Missing: that the promise leaves the reserve in the pool. -/
theorem C37_rate_partial (s t : RewardsState) (r pool units : Nat) (p : Params)
    (h : nextState s r p pool units = .ok t) (hr : r = s.recalculationRound) :
    t.rate * p.rewardsRateRefreshInterval ≤ pool + max (reserve p s.residue) pool ∧
    (u64Lim ≤ pool + p.minBalance → p.pendingResidueRewards = false → t.rate = 0) := by
  obtain ⟨hi, hrate, _⟩ := refresh_ok s t r pool units p h hr
  constructor
  · rw [hrate]
    refine Nat.le_trans (Nat.div_mul_le_self _ _) ?_
    rw [checkedAdd64]
    split
    · rw [Option.getD_some]
      have : maxSpentOver p s.residue pool ≤ max (reserve p s.residue) pool := by
        rw [maxSpentOver, reserve]
        split
        · rename_i hp
          rw [checkedAdd64]
          by_cases hx : p.minBalance + s.residue < u64Lim
          · rw [if_pos hx]; simp only; omega
          · rw [if_neg hx]; simp only; omega
        · omega
      omega
    · simp
  · intro hbig hp
    rw [hrate, maxSpentOver, if_neg (by simp [hp]), checkedAdd64, if_neg (by omega)]
    simp

/-- C37, the remaining case: should the minimum balance and the residue together leave 64 bits, the pool balance itself
stands in for the reserve, so twice the pool is promised, or nothing if that leaves 64 bits too. -/
theorem C37_overflowing_reserve (s t : RewardsState) (r pool units : Nat) (p : Params)
    (h : nextState s r p pool units = .ok t) (hr : r = s.recalculationRound) (hp : p.pendingResidueRewards = true)
    (hbig : u64Lim ≤ reserve p s.residue) :
    (2 * pool < u64Lim → t.rate = 2 * pool / p.rewardsRateRefreshInterval) ∧ (u64Lim ≤ 2 * pool → t.rate = 0) := by
  obtain ⟨hi, hrate, _⟩ := refresh_ok s t r pool units p h hr
  rw [reserve, if_pos hp] at hbig
  have hm : maxSpentOver p s.residue pool = pool := by
    rw [maxSpentOver, if_pos hp, checkedAdd64, if_neg (by omega)]
  rw [hrate, hm, checkedAdd64, Nat.two_mul]
  constructor
  · intro hlt
    rw [if_pos hlt, Option.getD_some]
  · intro hge
    rw [if_neg (by omega)]
    simp

/-- C37: the next refresh is scheduled one interval later, and between refreshes the rate is kept. -/
theorem C37_refresh_schedule (s t : RewardsState) (r pool units : Nat) (p : Params)
    (h : nextState s r p pool units = .ok t) :
    (r = s.recalculationRound → t.recalculationRound = r + p.rewardsRateRefreshInterval) ∧
    (r ≠ s.recalculationRound → t.rate = s.rate ∧ t.recalculationRound = s.recalculationRound) := by
  refine ⟨fun hr => (refresh_ok s t r pool units p h hr).2.2, fun hr => ?_⟩
  rw [nextState, refreshRate, if_neg hr, Res.ok_bind] at h
  split at h
  · simp only [Res.ok.injEq] at h
    rw [← h]; exact ⟨rfl, rfl⟩
  · split at h
    · simp only [Res.ok.injEq] at h
      rw [← h]; exact ⟨rfl, rfl⟩
    · split at h <;>
      · simp only [Res.ok.injEq] at h
        rw [← h]; exact ⟨rfl, rfl⟩

/-! ## C69: the genesis block -/

/-- The balance of the rewards pool that the genesis rate may draw on. -/
def genesisBudget (p : Params) (pool : Nat) : Nat :=
  if p.initialRewardsRateCalculation then pool - p.minBalance else pool

/-- C69: the rate of the genesis block is the largest one that the pool can pay until the first refresh, which is
scheduled one interval after genesis; nothing has been paid yet. Missing: the explicit failure, see below. -/
theorem C69_rate_partial (AD : Type) (env : Env AD) (tbl : Protocols) (v : Version) (p : Params) (hp : lookup tbl v = some p)
    (g : GenesisBalances) (id gh : Bytes) (b : Block.Block AD) (h : createBlock env tbl v g id gh = .ok b) :
    ∃ acct, (g.rewardsPool, acct) ∈ g.balances ∧
      b.header.body.rewards.rate * p.rewardsRateRefreshInterval ≤ genesisBudget p acct.microAlgos ∧
      genesisBudget p acct.microAlgos < (b.header.body.rewards.rate + 1) * p.rewardsRateRefreshInterval ∧
      b.header.body.rewards.recalculationRound = p.rewardsRateRefreshInterval ∧
      b.header.body.rewards.level = 0 ∧ b.header.body.rewards.residue = 0 := by
  rw [createBlock, hp] at h
  simp only [Res.ofOption_some, Res.ok_bind] at h
  obtain ⟨rw', h1, h⟩ := Res.bind_eq_ok.1 h
  simp only [Res.ok.injEq] at h
  subst h
  rw [genesisRewards] at h1
  cases hf : g.balances.find? (fun e => e.1 = g.rewardsPool) with
  | none => rw [hf] at h1; simp [Res.ofOption] at h1
  | some e =>
    rw [hf] at h1
    simp only [Option.map_some, Res.ofOption_some, Res.ok_bind] at h1
    obtain ⟨rate, h2, h1⟩ := Res.bind_eq_ok.1 h1
    simp only [Res.ok.injEq] at h1
    subst h1
    have he : e.1 = g.rewardsPool := by simpa using List.find?_some hf
    refine ⟨e.2, by rw [← he]; exact List.mem_of_find?_eq_some hf, ?_⟩
    rw [divU] at h2
    split at h2
    · simp at h2
    · rename_i hi
      simp only [Res.ok.injEq] at h2
      subst h2
      have hb : (if p.initialRewardsRateCalculation = true then e.2.microAlgos - p.minBalance else e.2.microAlgos) =
        genesisBudget p e.2.microAlgos := rfl
      rw [hb]
      exact ⟨Nat.div_mul_le_self _ _, Nat.lt_mul_of_div_lt (Nat.lt_succ_self _) (by omega), rfl, rfl, rfl⟩

/-- C69 is violated: creation never reports an error, whatever the balances: it crashes when the pool account is missing
(or the protocol is unknown, or its refresh interval zero) and succeeds in all other cases, underfunded pools included. -/
theorem C69_never_an_error (AD : Type) (env : Env AD) (tbl : Protocols) (v : Version) (g : GenesisBalances)
    (id gh : Bytes) :
    (∀ e, createBlock env tbl v g id gh ≠ .err e) ∧
    (createBlock env tbl v g id gh = .panic ↔
      ∀ p, lookup tbl v = some p → (∀ a, (g.rewardsPool, a) ∉ g.balances) ∨ p.rewardsRateRefreshInterval = 0) := by
  rw [createBlock]
  cases hp : lookup tbl v with
  | none => simp [Res.ofOption]
  | some p =>
    simp only [Res.ofOption_some, Res.ok_bind, genesisRewards, Option.some.injEq, forall_eq']
    cases hf : g.balances.find? (fun e => e.1 = g.rewardsPool) with
    | none =>
      have hnone : ∀ a, (g.rewardsPool, a) ∉ g.balances := by
        intro a ha
        have := List.find?_eq_none.1 hf _ ha
        simp at this
      simp [Res.ofOption, hnone]
    | some e =>
      have he : e.1 = g.rewardsPool := by simpa using List.find?_some hf
      have hin : (g.rewardsPool, e.2) ∈ g.balances := by rw [← he]; exact List.mem_of_find?_eq_some hf
      simp only [Option.map_some, Res.ofOption_some, Res.ok_bind, divU]
      by_cases hi : p.rewardsRateRefreshInterval = 0
      · simp [hi]
      · rw [if_neg hi]
        simp only [Res.ok_bind]
        refine ⟨by simp, ?_⟩
        constructor
        · intro h; simp at h
        · rintro (h | h)
          · exact absurd hin (h _)
          · exact absurd h hi

/-- C69 is violated: a pool that does not even hold the minimum balance is accepted, with rate zero. -/
theorem C69_underfunded_accepted (AD : Type) (env : Env AD) (tbl : Protocols) (v : Version) (p : Params)
    (hp : lookup tbl v = some p) (hi : p.rewardsRateRefreshInterval ≠ 0) (hinit : p.initialRewardsRateCalculation = true)
    (g : GenesisBalances) (acct : Balance.Account) (hg : g.balances = [(g.rewardsPool, acct)])
    (hlow : acct.microAlgos < p.minBalance) (id gh : Bytes) :
    ∃ b, createBlock env tbl v g id gh = .ok b ∧ b.header.body.rewards.rate = 0 := by
  refine ⟨?_, ?_, ?_⟩
  rotate_left
  · rw [createBlock, hp]
    simp only [Res.ofOption_some, Res.ok_bind, genesisRewards, hg, List.find?_cons, decide_true, Option.map_some, divU,
      if_neg hi, hinit, if_true]
    rfl
  · simp only
    rw [Nat.sub_eq_zero_of_le (Nat.le_of_lt hlow)]
    exact Nat.zero_div _

example : v30Base.initialRewardsRateCalculation = true ∧ v30Base.rewardsRateRefreshInterval = 500000 ∧
    0 < v30Base.minBalance := by decide +kernel

/-- The state after a round with 4 units. -/
def toyRewards1 : RewardsState := ⟨List.replicate 32 1, List.replicate 32 2, 10, 10, 3, 2⟩

/-- The state after another round with 7 units, the one where the rate is calculated anew. -/
def toyRewards2 : RewardsState := ⟨List.replicate 32 1, List.replicate 32 2, 11, 2, 6, 500002⟩

theorem toyRewards_round1 : nextState toyRewards 1 v30Base 1000000 4 = .ok toyRewards1 := by decide +kernel
theorem toyRewards_round2 : nextState toyRewards1 2 v30Base 1000000 7 = .ok toyRewards2 := by decide +kernel

/-- A case of `C36_round_conserves`: 15 for 4 units. -/
example : (toyRewards1.level - toyRewards.level) * 4 + toyRewards1.residue = 10 + 5 :=
  (C36_round_conserves _ _ _ _ _ _ toyRewards_round1 (by decide) (by decide) (by decide)).2.1

/-- A case of `C36_otherwise_kept`: a round without units. -/
example : ∃ t, nextState toyRewards 1 v30Base 1000000 0 = .ok t ∧ t.level = 7 ∧ t.residue = 5 := by
  have h : nextState toyRewards 1 v30Base 1000000 0 = .ok toyRewards := by decide +kernel
  exact ⟨_, h, C36_otherwise_kept _ _ _ _ _ _ h (.inl rfl)⟩

/-- A case of `C36_conserves` and `C36_never_overpays`: two rounds. -/
example : paidOut toyRewards [(⟨v30Base, 1000000, 4⟩, toyRewards1), (⟨v30Base, 1000000, 7⟩, toyRewards2)] + 6 = 20 + 5 ∧
    ∀ t ∈ [toyRewards1, toyRewards2], 7 ≤ t.level := by
  have h : rewardRun toyRewards 0 [⟨v30Base, 1000000, 4⟩, ⟨v30Base, 1000000, 7⟩] = .ok [toyRewards1, toyRewards2] := by
    decide +kernel
  exact ⟨C36_conserves _ _ _ _ h (by simp only [List.zip_cons_cons, List.zip_nil_left, FitsRun]; decide), (C36_never_overpays _ _ _ _ h).2⟩

/-- A case of `C37_reserve_is_added`, `C37_rate_partial` and `C37_refresh_schedule`: a pool of one algo. -/
example : 1000000 + reserve v30Base 3 < (toyRewards2.rate + 1) * v30Base.rewardsRateRefreshInterval ∧
    toyRewards2.rate * v30Base.rewardsRateRefreshInterval ≤ 1000000 + max (reserve v30Base 3) 1000000 ∧
    toyRewards2.recalculationRound = 2 + v30Base.rewardsRateRefreshInterval :=
  ⟨(C37_reserve_is_added _ _ _ _ _ _ toyRewards_round2 rfl (by decide +kernel)).2,
    (C37_rate_partial _ _ _ _ _ _ toyRewards_round2 rfl).1, (C37_refresh_schedule _ _ _ _ _ _ toyRewards_round2).1 rfl⟩

/-- A case of `C37_always_overpromises`: with an interval of 1000 rounds. -/
example : ∃ t, nextState toyRewards 2 { v30Base with rewardsRateRefreshInterval := 1000 } 400 1 = .ok t ∧
    400 < t.rate * 1000 := by
  obtain ⟨t, h⟩ : ∃ t, nextState toyRewards 2 { v30Base with rewardsRateRefreshInterval := 1000 } 400 1 = .ok t :=
    ⟨⟨List.replicate 32 1, List.replicate 32 2, 22, 100, 0, 1002⟩, by decide +kernel⟩
  exact ⟨t, h, C37_always_overpromises _ _ _ _ _ _ h rfl (by decide +kernel) (by decide +kernel)⟩

/-- A case of `C37_overflowing_reserve`: an owed residue near the largest number. -/
example : ∃ t, nextState { toyRewards with residue := 2 ^ 64 - 1 } 2 v30Base 1000000 0 = .ok t ∧ t.rate = 4 := by
  obtain ⟨t, h⟩ : ∃ t, nextState { toyRewards with residue := 2 ^ 64 - 1 } 2 v30Base 1000000 0 = .ok t :=
    ⟨⟨List.replicate 32 1, List.replicate 32 2, 7, 4, 2 ^ 64 - 1, 500002⟩, by decide +kernel⟩
  refine ⟨t, h, ?_⟩
  rw [(C37_overflowing_reserve _ _ _ _ _ _ h rfl (by decide +kernel) (by decide +kernel)).1 (by decide)]
  decide +kernel

/-- A case of `C69_underfunded_accepted` and `C69_rate_partial`: a pool with 5 microalgos. -/
example {AD : Type} (env : Env AD) (p : Params) (hp : lookup builtin .v30 = some p) : ∃ b, createBlock env builtin .v30
      ⟨[([2], ⟨.notParticipating, 5, 0, 0, 0, 0, 0, 0, ⟨0, 0⟩, 0⟩)], [1], [2], 5⟩ [103] [9] = .ok b ∧
    b.header.body.rewards.rate = 0 ∧ b.header.body.rewards.recalculationRound = p.rewardsRateRefreshInterval := by
  have h0 : (lookup builtin .v30).map (fun p => (p.rewardsRateRefreshInterval, p.initialRewardsRateCalculation, decide (5 < p.minBalance)))
    = some (500000, true, true) := by decide +kernel
  rw [hp] at h0
  simp only [Option.map_some, Option.some.injEq, Prod.mk.injEq, decide_eq_true_eq] at h0
  obtain ⟨b, h, hr⟩ := C69_underfunded_accepted AD env builtin .v30 p hp (by rw [h0.1]; decide) h0.2.1
    ⟨[([2], ⟨.notParticipating, 5, 0, 0, 0, 0, 0, 0, ⟨0, 0⟩, 0⟩)], [1], [2], 5⟩ _ rfl h0.2.2 [103] [9]
  obtain ⟨_, _, _, _, h4, _⟩ := C69_rate_partial AD env builtin .v30 p hp _ _ _ b h
  exact ⟨b, h, hr, h4⟩

end Verif.Props
