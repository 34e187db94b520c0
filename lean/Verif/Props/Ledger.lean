import Verif.Props.Balance
import Verif.Props.Rewards
import Verif.Props.Block
/-!
# C181: rewards over whole histories of accounts
-/

namespace Verif.Props
open Verif Verif.Consensus Verif.Balance Verif.Block

/-! ## Specification

A set of accounts and the rewards state of the latest block. In each round the rewards state advances with the number of
reward units that the accounts hold; between rounds accounts are brought up to date, pay each other, and change their
status. Whoever changes an account brings it up to date first, as the ledger does. -/

/-- Whole reward units of an account that takes part. -/
def liveUnits (p : Params) (a : Account) : Nat :=
  if a.status = .notParticipating then 0 else a.microAlgos / p.rewardUnit

/-- What the account is owed at a level. -/
def owedAt (p : Params) (level : Nat) (a : Account) : Nat := liveUnits p a * (level - a.rewardsBase)

structure Bank where
  accts : List Account
  rs : RewardsState

def Bank.units (p : Params) (b : Bank) : Nat := (b.accts.map (liveUnits p)).sum
def Bank.funds (b : Bank) : Nat := (b.accts.map (·.microAlgos)).sum
def Bank.owed (p : Params) (b : Bank) : Nat := (b.accts.map (owedAt p b.rs.level)).sum
def Bank.counters (b : Bank) : Nat := (b.accts.map (·.rewarded)).sum

inductive BankOp where
  | round (number pool : Nat)
  | update (i : Nat)
  | pay (i j amount : Nat)
  | status (i : Nat) (s : Status)

/-- Bring an account up to date. -/
def Bank.update (p : Params) (b : Bank) (i : Nat) : Res Unit Bank := do
  let a ← Res.ofOption b.accts[i]?
  let a' ← withUpdatedRewards a p b.rs.level
  .ok { b with accts := b.accts.set i a' }

/-- Move an amount from one account to another, if it is there. -/
def Bank.move (b : Bank) (i j amount : Nat) : Res Unit Bank := do
  let a ← Res.ofOption b.accts[i]?
  if a.microAlgos < amount then .ok b
  else do
    let l := b.accts.set i { a with microAlgos := a.microAlgos - amount }
    let c ← Res.ofOption l[j]?
    let m ← addU64 c.microAlgos amount
    .ok { b with accts := l.set j { c with microAlgos := m } }

/-- An account that does not take part stays so. -/
def Bank.setStatus (b : Bank) (i : Nat) (s : Status) : Res Unit Bank := do
  let a ← Res.ofOption b.accts[i]?
  if a.status = .notParticipating then .ok b else .ok { b with accts := b.accts.set i { a with status := s } }

def bankStep (p : Params) (b : Bank) : BankOp → Res Unit Bank
  | .round r pool => do
    let rs ← nextState b.rs r p pool (b.units p)
    .ok { b with rs := rs }
  | .update i => b.update p i
  | .pay i j amount => do
    let b ← b.update p i
    let b ← b.update p j
    b.move i j amount
  | .status i s => do
    let b ← b.update p i
    b.setStatus i s

def bankRun (p : Params) : Bank → List BankOp → Res Unit Bank
  | b, [] => .ok b
  | b, op :: ops => do
    let b ← bankStep p b op
    bankRun p b ops

/-- What the rounds take for the accounts: the rise of the level times the reward units. -/
def drawn (p : Params) : Bank → List BankOp → Nat
  | _, [] => 0
  | b, op :: ops =>
    match bankStep p b op with
    | .ok b' => (b'.rs.level - b.rs.level) * b.units p + drawn p b' ops
    | _ => 0

/-- The rate of a round. -/
def promisedBy (b : Bank) : BankOp → Nat
  | .round _ _ => b.rs.rate
  | _ => 0

/-- The rates of the rounds. -/
def promised (p : Params) : Bank → List BankOp → Nat
  | _, [] => 0
  | b, op :: ops =>
    promisedBy b op +
    match bankStep p b op with
    | .ok b' => promised p b' ops
    | _ => 0

/-- No account is ahead of the level. -/
def NoneAhead (b : Bank) : Prop := ∀ a ∈ b.accts, a.status ≠ .notParticipating → a.rewardsBase ≤ b.rs.level

/-! ## Proof -/

theorem sum_set (f : Account → Nat) : ∀ (l : List Account) (i : Nat) (a a' : Account), l[i]? = some a →
    ((l.set i a').map f).sum + f a = (l.map f).sum + f a'
  | [], i, a, a', h => by simp at h
  | x :: l, 0, a, a', h => by simp at h; subst h; simp; omega
  | x :: l, i + 1, a, a', h => by
    have := sum_set f l i a a' (by simpa using h)
    simp only [List.set_cons_succ, List.map_cons, List.sum_cons]
    omega

theorem ofOption_ok {α : Type} {o : Option α} {x : α} (h : (Res.ofOption o : Res Unit α) = .ok x) : o = some x := by
  cases o with
  | none => cases h
  | some y => injection h with h; rw [h]

/-- The account has nothing to get at the level. -/
def UpToDate (level : Nat) (a : Account) : Prop := a.status = .notParticipating ∨ a.rewardsBase = level

theorem owedAt_upToDate {p : Params} {level : Nat} {a : Account} (h : UpToDate level a) : owedAt p level a = 0 := by
  rcases h with h | h
  · simp [owedAt, liveUnits, h]
  · simp [owedAt, h]

theorem updated_facts {p : Params} {level : Nat} {a a' : Account} (h : withUpdatedRewards a p level = .ok a') :
    UpToDate level a' ∧ a'.microAlgos = a.microAlgos + owedAt p level a ∧ a'.status = a.status ∧
    a'.rewarded % 2 ^ 64 = (a.rewarded + owedAt p level a) % 2 ^ 64 ∧ (a'.status ≠ .notParticipating → a'.rewardsBase = level) := by
  by_cases hs : a.status = .notParticipating
  · rw [C49_not_participating a p level hs] at h
    injection h with h; subst h
    exact ⟨Or.inl hs, by simp [owedAt, liveUnits, hs], rfl, by simp [owedAt, liveUnits, hs], fun h => absurd hs h⟩
  · obtain ⟨_, rfl, _⟩ := C49_exact_amount a a' p level hs h
    simp only [owedAt, liveUnits, hs, if_false]
    refine ⟨Or.inr rfl, by rw [Nat.mul_comm], trivial, by rw [Nat.mod_mod, Nat.mul_comm], fun _ => trivial⟩

theorem update_facts {p : Params} {b b' : Bank} {i : Nat} (h : b.update p i = .ok b') (hb : NoneAhead b) :
    b'.rs = b.rs ∧ NoneAhead b' ∧ b'.funds + b'.owed p = b.funds + b.owed p ∧
    (b'.counters + b.funds) % 2 ^ 64 = (b.counters + b'.funds) % 2 ^ 64 ∧ b'.accts.length = b.accts.length ∧
    (∃ a, b'.accts[i]? = some a ∧ UpToDate b.rs.level a) ∧
    (∀ (j : Nat) (a : Account), b.accts[j]? = some a → UpToDate b.rs.level a → ∃ a', b'.accts[j]? = some a' ∧ UpToDate b.rs.level a') := by
  unfold Bank.update at h
  obtain ⟨a, h1, h⟩ := Res.bind_eq_ok.1 h
  obtain ⟨a', h2, h⟩ := Res.bind_eq_ok.1 h
  have h1 := ofOption_ok h1
  injection h with h; subst h
  obtain ⟨u1, u2, u3, u4, u5⟩ := updated_facts h2
  have hlt : i < b.accts.length := (List.getElem?_eq_some_iff.1 h1).1
  have s1 := sum_set (·.microAlgos) b.accts i a a' h1
  have s2 := sum_set (owedAt p b.rs.level) b.accts i a a' h1
  have s3 := sum_set (·.rewarded) b.accts i a a' h1
  have hz := owedAt_upToDate (p := p) u1
  refine ⟨rfl, ?_, ?_, ?_, by simp, ⟨a', by simp [hlt], u1⟩, ?_⟩
  · intro x hx hns
    rcases List.mem_or_eq_of_mem_set hx with hx | rfl
    · exact hb x hx hns
    · exact Nat.le_of_eq (u5 hns)
  · simp only [Bank.funds, Bank.owed]
    omega
  · simp only [Bank.counters, Bank.funds]
    omega
  · intro j x hx hu
    by_cases hij : i = j
    · subst hij; exact ⟨a', by simp [hlt], u1⟩
    · exact ⟨x, by simp [hij, hx], hu⟩

theorem move_facts {p : Params} {b b' : Bank} {i j n : Nat} (h : b.move i j n = .ok b') (hb : NoneAhead b)
    (hi : ∃ a, b.accts[i]? = some a ∧ UpToDate b.rs.level a) (hj : ∃ a, b.accts[j]? = some a ∧ UpToDate b.rs.level a) :
    b'.rs = b.rs ∧ NoneAhead b' ∧ b'.funds = b.funds ∧ b'.owed p = b.owed p ∧ b'.counters = b.counters := by
  unfold Bank.move at h
  obtain ⟨a, h1, h⟩ := Res.bind_eq_ok.1 h
  have h1 := ofOption_ok h1
  split at h
  · injection h with h; subst h; exact ⟨rfl, hb, rfl, rfl, rfl⟩
  · rename_i hge
    obtain ⟨c, h2, h⟩ := Res.bind_eq_ok.1 h
    obtain ⟨m, h3, h⟩ := Res.bind_eq_ok.1 h
    have h2 := ofOption_ok h2
    injection h with h; subst h
    have hm := (addU64_ok h3).1
    obtain ⟨a0, ha0, hua⟩ := hi
    rw [h1] at ha0; injection ha0 with ha0; subst ha0
    have hlt : i < b.accts.length := (List.getElem?_eq_some_iff.1 h1).1
    generalize hna : ({ a with microAlgos := a.microAlgos - n } : Account) = na at h2 ⊢
    have hna1 : UpToDate b.rs.level na := by subst hna; exact hua
    have hna2 : na.microAlgos = a.microAlgos - n ∧ na.rewarded = a.rewarded := by subst hna; exact ⟨rfl, rfl⟩
    have huc : UpToDate b.rs.level c := by
      by_cases hij : i = j
      · subst hij
        simp [hlt] at h2
        subst h2; exact hna1
      · obtain ⟨c0, hc0, hu⟩ := hj
        rw [List.getElem?_set] at h2
        simp only [hij, if_false] at h2
        rw [hc0] at h2; injection h2 with h2; subst h2; exact hu
    generalize hnc : ({ c with microAlgos := m } : Account) = nc
    have hnc1 : UpToDate b.rs.level nc := by subst hnc; exact huc
    have hnc2 : nc.microAlgos = m ∧ nc.rewarded = c.rewarded := by subst hnc; exact ⟨rfl, rfl⟩
    have e1 := sum_set (·.microAlgos) _ i a na h1
    have e2 := sum_set (·.microAlgos) _ j c nc h2
    have o1 := sum_set (owedAt p b.rs.level) _ i a na h1
    have o2 := sum_set (owedAt p b.rs.level) _ j c nc h2
    have r1 := sum_set (·.rewarded) _ i a na h1
    have r2 := sum_set (·.rewarded) _ j c nc h2
    have z1 := owedAt_upToDate (p := p) hua
    have z2 := owedAt_upToDate (p := p) hna1
    have z3 := owedAt_upToDate (p := p) huc
    have z4 := owedAt_upToDate (p := p) hnc1
    have ahead : ∀ x, UpToDate b.rs.level x → x.status ≠ .notParticipating → x.rewardsBase ≤ b.rs.level := by
      intro x hx hns
      rcases hx with hx | hx
      · exact absurd hx hns
      · exact Nat.le_of_eq hx
    refine ⟨rfl, ?_, ?_, ?_, ?_⟩
    · intro x hx hns
      rcases List.mem_or_eq_of_mem_set hx with hx | rfl
      · rcases List.mem_or_eq_of_mem_set hx with hx | rfl
        · exact hb x hx hns
        · exact ahead _ hna1 hns
      · exact ahead _ hnc1 hns
    · simp only [Bank.funds]; omega
    · simp only [Bank.owed]; omega
    · simp only [Bank.counters]; omega

theorem setStatus_facts {p : Params} {b b' : Bank} {i : Nat} {s : Status} (h : b.setStatus i s = .ok b') (hb : NoneAhead b)
    (hi : ∃ a, b.accts[i]? = some a ∧ UpToDate b.rs.level a) :
    b'.rs = b.rs ∧ NoneAhead b' ∧ b'.funds = b.funds ∧ b'.owed p = b.owed p ∧ b'.counters = b.counters := by
  unfold Bank.setStatus at h
  obtain ⟨a, h1, h⟩ := Res.bind_eq_ok.1 h
  have h1 := ofOption_ok h1
  split at h
  · injection h with h; subst h; exact ⟨rfl, hb, rfl, rfl, rfl⟩
  · rename_i hs
    injection h with h; subst h
    obtain ⟨a0, ha0, hua⟩ := hi
    rw [h1] at ha0; injection ha0 with ha0; subst ha0
    have hbase : a.rewardsBase = b.rs.level := hua.resolve_left hs
    have e1 := sum_set (·.microAlgos) _ i a { a with status := s } h1
    have o1 := sum_set (owedAt p b.rs.level) _ i a { a with status := s } h1
    have r1 := sum_set (·.rewarded) _ i a { a with status := s } h1
    have z1 := owedAt_upToDate (p := p) hua
    have z2 := owedAt_upToDate (p := p) (level := b.rs.level) (a := { a with status := s }) (Or.inr hbase)
    refine ⟨rfl, ?_, ?_, ?_, ?_⟩
    · intro x hx hns
      rcases List.mem_or_eq_of_mem_set hx with hx | rfl
      · exact hb x hx hns
      · exact Nat.le_of_eq hbase
    · simp only [Bank.funds]; simp only at e1; omega
    · simp only [Bank.owed]; omega
    · simp only [Bank.counters]; simp only at r1; omega

theorem owed_rise {p : Params} {l l' : Nat} (hl : l ≤ l') : ∀ (accts : List Account),
    (∀ a ∈ accts, a.status ≠ .notParticipating → a.rewardsBase ≤ l) →
    (accts.map (owedAt p l')).sum = (accts.map (owedAt p l)).sum + (l' - l) * (accts.map (liveUnits p)).sum
  | [], _ => by simp
  | a :: accts, h => by
    have ih := owed_rise (p := p) hl accts (fun x hx => h x (by simp [hx]))
    simp only [List.map_cons, List.sum_cons, ih]
    have : owedAt p l' a = owedAt p l a + (l' - l) * liveUnits p a := by
      by_cases hs : a.status = .notParticipating
      · simp [owedAt, liveUnits, hs]
      · have hb := h a (by simp) hs
        rw [owedAt, owedAt, show l' - a.rewardsBase = (l - a.rewardsBase) + (l' - l) by omega, Nat.mul_add,
          Nat.mul_comm (l' - l)]
    rw [this, Nat.mul_add]
    omega

theorem nextState_facts {s t : RewardsState} {r pool units : Nat} {p : Params} (h : nextState s r p pool units = .ok t) :
    s.level ≤ t.level ∧ (t.level - s.level) * units + t.residue ≤ s.rate + s.residue := by
  by_cases hno : units = 0 ∨ u64Lim ≤ s.rate + s.residue ∨ u64Lim ≤ s.level + (s.rate + s.residue) / units
  · obtain ⟨h1, h2⟩ := C36_otherwise_kept s t r pool units p h hno
    rw [h1, h2]; simp
  · simp only [not_or, Nat.not_le] at hno
    obtain ⟨h1, h2, _⟩ := C36_round_conserves s t r pool units p h hno.1 hno.2.1 hno.2.2
    exact ⟨h1, Nat.le_of_eq h2⟩

theorem bankStep_facts {p : Params} {b b' : Bank} {op : BankOp} (h : bankStep p b op = .ok b') (hb : NoneAhead b) :
    NoneAhead b' ∧ b.rs.level ≤ b'.rs.level ∧
    b'.funds + b'.owed p = b.funds + b.owed p + (b'.rs.level - b.rs.level) * b.units p ∧
    (b'.counters + b.funds) % 2 ^ 64 = (b.counters + b'.funds) % 2 ^ 64 ∧
    (b'.rs.level - b.rs.level) * b.units p + b'.rs.residue ≤
      promisedBy b op + b.rs.residue := by
  cases op with
  | round r pool =>
    unfold bankStep at h
    obtain ⟨rs, h1, h⟩ := Res.bind_eq_ok.1 h
    injection h with h; subst h
    obtain ⟨n1, n2⟩ := nextState_facts h1
    refine ⟨fun a ha hs => Nat.le_trans (hb a ha hs) n1, n1, ?_, rfl, n2⟩
    have := owed_rise (p := p) n1 b.accts hb
    simp only [Bank.funds, Bank.owed, Bank.units, this]
    omega
  | update i =>
    obtain ⟨h1, h2, h3, h4, _⟩ := update_facts h hb
    refine ⟨h2, by rw [h1], by rw [h1, h3]; simp, h4, by rw [h1]; simp⟩
  | pay i j n =>
    unfold bankStep at h
    obtain ⟨b1, e1, h⟩ := Res.bind_eq_ok.1 h
    obtain ⟨b2, e2, h⟩ := Res.bind_eq_ok.1 h
    obtain ⟨f1, f2, f3, f4, f5, ⟨a, f6, f6'⟩, f7⟩ := update_facts e1 hb
    obtain ⟨g1, g2, g3, g4, g5, ⟨a2, g6, g6'⟩, g7⟩ := update_facts e2 f2
    have hi : ∃ a, b2.accts[i]? = some a ∧ UpToDate b2.rs.level a := by
      obtain ⟨x, x1, x2⟩ := g7 i a f6 (by rw [f1]; exact f6')
      exact ⟨x, x1, by rw [g1]; exact x2⟩
    have hj : ∃ a, b2.accts[j]? = some a ∧ UpToDate b2.rs.level a := ⟨a2, g6, by rw [g1]; exact g6'⟩
    obtain ⟨m1, m2, m3, m4, m5⟩ := move_facts (p := p) h g2 hi hj
    have hrs : b'.rs = b.rs := by rw [m1, g1, f1]
    refine ⟨m2, by rw [hrs], by rw [hrs, m3, m4, g3, f3]; simp, ?_, by rw [hrs]; simp⟩
    rw [m3, m5]; omega
  | status i s =>
    unfold bankStep at h
    obtain ⟨b1, e1, h⟩ := Res.bind_eq_ok.1 h
    obtain ⟨f1, f2, f3, f4, _, ⟨a, f6, f6'⟩, _⟩ := update_facts e1 hb
    obtain ⟨m1, m2, m3, m4, m5⟩ := setStatus_facts (p := p) h f2 ⟨a, f6, by rw [f1]; exact f6'⟩
    have hrs : b'.rs = b.rs := by rw [m1, f1]
    refine ⟨m2, by rw [hrs], by rw [hrs, m3, m4, f3]; simp, ?_, by rw [hrs]; simp⟩
    rw [m3, m5]; exact f4

/-! ## C181 -/

/-- **C181**: over any history, what the accounts hold and are owed grows by exactly what the rounds took for them, and
this and the residue are never more than the rates of the rounds and the residue at the start; the counters of rewards grow
(modulo 2^64) by what the accounts got. -/
theorem C181_conserved (p : Params) (b b' : Bank) (hb : NoneAhead b) (ops : List BankOp) (h : bankRun p b ops = .ok b') :
    b'.funds + b'.owed p = b.funds + b.owed p + drawn p b ops ∧
    drawn p b ops + b'.rs.residue ≤ promised p b ops + b.rs.residue ∧
    (b'.counters + b.funds) % 2 ^ 64 = (b.counters + b'.funds) % 2 ^ 64 ∧ NoneAhead b' := by
  induction ops generalizing b with
  | nil =>
    injection h with h; subst h
    simp [drawn, promised, hb]
  | cons op ops ih =>
    obtain ⟨b1, h1, h⟩ := Res.bind_eq_ok.1 h
    obtain ⟨s1, s2, s3, s4, s5⟩ := bankStep_facts h1 hb
    obtain ⟨i1, i2, i3, i4⟩ := ih b1 s1 h
    simp only [drawn, promised, h1]
    refine ⟨by omega, by omega, by omega, i4⟩

/-- **C181**: an account can be brought up to date at any point of any history, unless its balance with the rewards does not
fit into 64 bits. -/
theorem C181_update_succeeds (p : Params) (hu : p.rewardUnit ≠ 0) (b b' : Bank) (hb : NoneAhead b) (ops : List BankOp)
    (h : bankRun p b ops = .ok b') (i : Nat) (a : Account) (ha : b'.accts[i]? = some a)
    (hfit : a.microAlgos + owedAt p b'.rs.level a < 2 ^ 64) : ∃ b'', b'.update p i = .ok b'' := by
  have hn := (C181_conserved p b b' hb ops h).2.2.2
  have : ∃ a', withUpdatedRewards a p b'.rs.level = .ok a' := by
    by_cases hs : a.status = .notParticipating
    · exact ⟨a, C49_not_participating a p _ hs⟩
    · refine (C49_succeeds_iff a p _ hs hu).2 ⟨hn a (List.mem_of_getElem? ha) hs, ?_⟩
      simp only [owedAt, liveUnits, hs, if_false] at hfit
      rw [Nat.mul_comm]; exact hfit
  obtain ⟨a', e⟩ := this
  unfold Bank.update
  rw [ha, Res.ofOption_some, Res.ok_bind, e, Res.ok_bind]
  exact ⟨_, rfl⟩

/-- **C181**: when the sums fit into 64 bits and there are reward units in each round, nothing is lost either: what the
rounds took and the residue are what was promised. -/
theorem C181_nothing_lost (p : Params) (b b' : Bank) (hb : NoneAhead b) (ops : List BankOp) (h : bankRun p b ops = .ok b')
    (hfit : ∀ pre r pool b1, pre ++ [.round r pool] <+: ops → bankRun p b pre = .ok b1 → b1.units p ≠ 0 ∧
      b1.rs.rate + b1.rs.residue < u64Lim ∧ b1.rs.level + (b1.rs.rate + b1.rs.residue) / b1.units p < u64Lim) :
    b'.funds + b'.owed p + b'.rs.residue = b.funds + b.owed p + b.rs.residue + promised p b ops := by
  induction ops generalizing b with
  | nil =>
    injection h with h; subst h
    simp [promised]
  | cons op ops ih =>
    obtain ⟨b1, h1, h⟩ := Res.bind_eq_ok.1 h
    obtain ⟨s1, s2, s3, s4, s5⟩ := bankStep_facts h1 hb
    have i1 := ih b1 s1 h (fun pre r pool b2 hp hr => hfit (op :: pre) r pool b2 (by simpa using hp)
      (by rw [bankRun, h1, Res.ok_bind]; exact hr))
    have key : (b1.rs.level - b.rs.level) * b.units p + b1.rs.residue =
        promisedBy b op + b.rs.residue := by
      cases op with
      | round r pool =>
        obtain ⟨f1, f2, f3⟩ := hfit [] r pool b (by simp) rfl
        unfold bankStep at h1
        obtain ⟨rs, e, h1⟩ := Res.bind_eq_ok.1 h1
        injection h1 with h1; subst h1
        exact (C36_round_conserves b.rs rs r pool _ p e f1 f2 f3).2.1
      | update i => rw [(update_facts h1 hb).1]; simp [promisedBy]
      | pay i j n =>
        unfold bankStep at h1
        obtain ⟨b2, e1, h1⟩ := Res.bind_eq_ok.1 h1
        obtain ⟨b3, e2, h1⟩ := Res.bind_eq_ok.1 h1
        obtain ⟨x1, x2, _, _, _, ⟨a, x6, x6'⟩, _⟩ := update_facts e1 hb
        obtain ⟨y1, y2, _, _, _, ⟨a2, y6, y6'⟩, y7⟩ := update_facts e2 x2
        obtain ⟨z, z1, z2⟩ := y7 i a x6 (by rw [x1]; exact x6')
        obtain ⟨m1, _⟩ := move_facts (p := p) h1 y2 ⟨z, z1, by rw [y1]; exact z2⟩ ⟨a2, y6, by rw [y1]; exact y6'⟩
        rw [m1, y1, x1]; simp [promisedBy]
      | status i s =>
        unfold bankStep at h1
        obtain ⟨b2, e1, h1⟩ := Res.bind_eq_ok.1 h1
        obtain ⟨x1, x2, _, _, _, ⟨a, x6, x6'⟩, _⟩ := update_facts e1 hb
        obtain ⟨m1, _⟩ := setStatus_facts (p := p) h1 x2 ⟨a, x6, by rw [x1]; exact x6'⟩
        rw [m1, x1]; simp [promisedBy]
    simp only [promised, h1]
    omega

/-- Two accounts and one that does not take part; two rounds with a payment and a change of status between them. -/
def toyBank : Bank :=
  ⟨[⟨.online, 25, 0, 0, 0, 0, 0, 0, ⟨0, 0⟩, 0⟩, ⟨.offline, 31, 0, 0, 0, 0, 0, 0, ⟨0, 0⟩, 0⟩,
    ⟨.notParticipating, 1000, 0, 0, 0, 0, 0, 0, ⟨0, 0⟩, 0⟩], ⟨[], [], 0, 23, 0, 0⟩⟩

example : NoneAhead toyBank ∧ ∃ b', bankRun toyParams toyBank [.round 1 0, .pay 0 1 7, .status 1 .online, .round 2 0, .update 0] =
    .ok b' ∧ b'.funds = 1056 + 26 ∧ b'.owed toyParams = 15 ∧ b'.rs.residue = 5 := by
  refine ⟨by intro a ha _; simp [toyBank] at ha; rcases ha with rfl | rfl | rfl <;> simp [toyBank], ?_⟩
  exact ⟨_, rfl, by decide, by decide, by decide⟩

/-- A case of `C181_conserved` and `C181_update_succeeds`: one round, after which the first account is brought up to date. -/
example (b' : Bank) (h : bankRun toyParams toyBank [.round 1 0] = .ok b') :
    b'.funds + b'.owed toyParams = toyBank.funds + toyBank.owed toyParams + drawn toyParams toyBank [.round 1 0] :=
  (C181_conserved toyParams toyBank b' (by intro a ha _; simp [toyBank] at ha; rcases ha with rfl | rfl | rfl <;> simp [toyBank])
    _ h).1

end Verif.Props
