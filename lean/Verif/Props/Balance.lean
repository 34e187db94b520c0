import Verif.Model.Balance
import Verif.Props.HashId
import Verif.Props.Consensus
import Mathlib.Tactic.Ring
import Mathlib.Tactic.Linarith
import Mathlib.Algebra.Order.BigOperators.Group.List
/-!
# Properties of account balances, schemas and state deltas (C49 - C54, C72 - C75)
-/

namespace Verif.Props
open Verif Verif.Consensus Verif.Teal Verif.Balance Verif.HashId

/-! ## C49, C50: rewards -/

/-- C49: applying rewards to a participating account adds exactly (level difference) × (whole reward units) to the
balance and, modulo 2^64, to the counter, sets the level, and changes nothing else. -/
theorem C49_exact_amount (ad ad' : Account) (proto : Params) (level : Nat) (hs : ad.status ≠ .notParticipating)
    (h : withUpdatedRewards ad proto level = .ok ad') :
    ad.rewardsBase ≤ level ∧
    ad' = { ad with
      microAlgos := ad.microAlgos + (level - ad.rewardsBase) * (ad.microAlgos / proto.rewardUnit)
      rewardsBase := level
      rewarded := (ad.rewarded + (level - ad.rewardsBase) * (ad.microAlgos / proto.rewardUnit)) % 2 ^ 64 } ∧
    pendingRewards proto ad.microAlgos ad.rewardsBase level = .ok (ad'.microAlgos - ad.microAlgos) ∧
    money ad proto level = .ok (ad'.microAlgos, ad'.rewarded) := by
  have hm : money ad proto level = .ok (ad'.microAlgos, ad'.rewarded) := by rw [money, h]; rfl
  rw [withUpdatedRewards, if_pos hs] at h
  obtain ⟨u, h1, h⟩ := Res.bind_eq_ok.1 h
  obtain ⟨d, h2, h⟩ := Res.bind_eq_ok.1 h
  obtain ⟨r, h3, h⟩ := Res.bind_eq_ok.1 h
  obtain ⟨a, h4, h⟩ := Res.bind_eq_ok.1 h
  have hp : pendingRewards proto ad.microAlgos ad.rewardsBase level = .ok r := by
    rw [pendingRewards, h1, Res.ok_bind, h2, Res.ok_bind, h3]
  have hle : ad.rewardsBase ≤ level := by
    by_contra hc
    rw [subU, if_neg hc] at h2; cases h2
  rw [divU] at h1; split at h1 <;> cases h1
  rw [subU, if_pos hle] at h2; cases h2
  rw [mulU64] at h3; split at h3 <;> cases h3
  rw [addU64] at h4; split at h4 <;> cases h4
  cases h
  refine ⟨hle, ?_, ?_, hm⟩
  · rw [Nat.mul_comm (level - _)]
  · rw [hp]; simp

/-- C49: non-participating accounts are unchanged, at any level. -/
theorem C49_not_participating (ad : Account) (proto : Params) (level : Nat) (hs : ad.status = .notParticipating) :
    withUpdatedRewards ad proto level = .ok ad := by
  rw [withUpdatedRewards, if_neg (by simp [hs])]; rfl

/-- C49: when it succeeds: exactly when the level is not in the past and the new balance fits 64 bits (a balance
that would overflow is a crash, never a wrong balance). -/
theorem C49_succeeds_iff (ad : Account) (proto : Params) (level : Nat) (hs : ad.status ≠ .notParticipating)
    (hu : proto.rewardUnit ≠ 0) :
    (∃ ad', withUpdatedRewards ad proto level = .ok ad') ↔ ad.rewardsBase ≤ level ∧
      ad.microAlgos + (level - ad.rewardsBase) * (ad.microAlgos / proto.rewardUnit) < 2 ^ 64 := by
  rw [withUpdatedRewards, if_pos hs, divU, if_neg hu, Res.ok_bind, subU]
  by_cases hle : ad.rewardsBase ≤ level
  · rw [if_pos hle, Res.ok_bind, mulU64, Nat.mul_comm]
    by_cases hlt : (level - ad.rewardsBase) * (ad.microAlgos / proto.rewardUnit) < u64Lim
    · rw [if_pos hlt, Res.ok_bind, addU64]
      by_cases h2 : ad.microAlgos + (level - ad.rewardsBase) * (ad.microAlgos / proto.rewardUnit) < u64Lim
      · rw [if_pos h2]; exact ⟨fun _ => ⟨hle, h2⟩, fun _ => ⟨_, rfl⟩⟩
      · rw [if_neg h2]; exact ⟨fun ⟨_, e⟩ => (by cases e), fun e => absurd e.2 h2⟩
    · rw [if_neg hlt]
      refine ⟨fun ⟨_, e⟩ => (by cases e), fun e => absurd e.2 ?_⟩
      have : u64Lim = 2 ^ 64 := rfl
      omega
  · rw [if_neg hle]; exact ⟨fun ⟨_, e⟩ => (by cases e), fun e => absurd e.1 hle⟩

/-- C49: applying twice at the same level is the same as once. -/
theorem C49_idempotent (ad ad' : Account) (proto : Params) (level : Nat)
    (h : withUpdatedRewards ad proto level = .ok ad') : withUpdatedRewards ad' proto level = .ok ad' := by
  by_cases hs : ad.status = .notParticipating
  · rw [C49_not_participating ad proto level hs] at h
    cases h
    exact C49_not_participating ad proto level hs
  · have hu : proto.rewardUnit ≠ 0 := by
      intro hu
      rw [withUpdatedRewards, if_pos hs, divU, if_pos hu] at h; cases h
    obtain ⟨h1, h2, _⟩ := C49_exact_amount ad ad' proto level hs h
    have hs' : ad'.status ≠ .notParticipating := by rw [h2]; exact hs
    have hbase : ad'.rewardsBase = level := by rw [h2]
    have hlt : ad'.microAlgos < 2 ^ 64 := by
      rw [h2]; exact ((C49_succeeds_iff ad proto level hs hu).1 ⟨_, h⟩).2
    have hrlt : ad'.rewarded < 2 ^ 64 := by rw [h2]; exact Nat.mod_lt _ (by decide)
    obtain ⟨ad'', h3⟩ := (C49_succeeds_iff ad' proto level hs' hu).2
      ⟨by omega, by rw [hbase]; simpa using hlt⟩
    obtain ⟨_, h4, _⟩ := C49_exact_amount ad' ad'' proto level hs' h3
    rw [h3, h4, hbase]
    simp only [Nat.sub_self, Nat.zero_mul, Nat.add_zero, Nat.mod_eq_of_lt hrlt]
    cases ad'
    simp only at hbase
    subst hbase
    rfl

/-- Apply rewards at a list of levels, one after the other. -/
def applyLevels (ad : Account) (proto : Params) : List Nat → Res Unit Account
  | [] => .ok ad
  | l :: ls => do
    let ad ← withUpdatedRewards ad proto l
    applyLevels ad proto ls

/-- C50: applying rewards at any list of intermediate levels and then at the final level never pays less than applying
them once at the final level. -/
theorem C50_steps_pay_no_less (ad one many : Account) (proto : Params) (levels : List Nat) (level : Nat)
    (h1 : withUpdatedRewards ad proto level = .ok one)
    (h2 : applyLevels ad proto (levels ++ [level]) = .ok many) :
    one.microAlgos ≤ many.microAlgos ∧ one.rewardsBase = many.rewardsBase ∧ one.status = many.status := by
  induction levels generalizing ad one with
  | nil =>
    rw [List.nil_append, applyLevels, h1, Res.ok_bind, applyLevels] at h2
    cases h2; exact ⟨Nat.le_refl _, rfl, rfl⟩
  | cons l ls ih =>
    rw [List.cons_append, applyLevels] at h2
    obtain ⟨mid, h3, h4⟩ := Res.bind_eq_ok.1 h2
    by_cases hs : ad.status = .notParticipating
    · rw [C49_not_participating ad proto l hs] at h3
      cases h3
      exact ih ad one h1 h4
    · obtain ⟨ha, hb, _⟩ := C49_exact_amount ad mid proto l hs h3
      obtain ⟨hc, hd, _⟩ := C49_exact_amount ad one proto level hs h1
      -- the middle account can be taken to the final level, since the whole sequence can
      have hfin : ∃ one', withUpdatedRewards mid proto level = .ok one' := by
        have hs' : mid.status ≠ .notParticipating := by rw [hb]; exact hs
        have hu : proto.rewardUnit ≠ 0 := by
          intro hu
          rw [withUpdatedRewards, if_pos hs, divU, if_pos hu] at h1; cases h1
        rw [C49_succeeds_iff mid proto level hs' hu]
        have key : ∀ (ls : List Nat) (x y : Account), x.status ≠ .notParticipating →
            applyLevels x proto (ls ++ [level]) = .ok y → x.rewardsBase ≤ level ∧
            x.microAlgos + (level - x.rewardsBase) * (x.microAlgos / proto.rewardUnit) ≤ y.microAlgos ∧
            y.microAlgos < 2 ^ 64 := by
          intro ls
          induction ls with
          | nil =>
            intro x y hx hy
            rw [List.nil_append, applyLevels] at hy
            obtain ⟨z, g1, g2⟩ := Res.bind_eq_ok.1 hy
            rw [applyLevels] at g2; cases g2
            obtain ⟨e1, e2, _⟩ := C49_exact_amount x y proto level hx g1
            obtain ⟨_, e3⟩ := (C49_succeeds_iff x proto level hx hu).1 ⟨_, g1⟩
            rw [e2]; exact ⟨e1, Nat.le_refl _, e3⟩
          | cons k ks ihk =>
            intro x y hx hy
            rw [List.cons_append, applyLevels] at hy
            obtain ⟨z, g1, g2⟩ := Res.bind_eq_ok.1 hy
            obtain ⟨e1, e2, _⟩ := C49_exact_amount x z proto k hx g1
            have hz : z.status ≠ .notParticipating := by rw [e2]; exact hx
            obtain ⟨f1, f2, f3⟩ := ihk z y hz g2
            have hzb : z.rewardsBase = k := by rw [e2]
            have hzm : z.microAlgos = x.microAlgos + (k - x.rewardsBase) * (x.microAlgos / proto.rewardUnit) := by
              rw [e2]
            rw [hzb] at f1 f2
            refine ⟨by omega, ?_, f3⟩
            have hmono : x.microAlgos / proto.rewardUnit ≤ z.microAlgos / proto.rewardUnit :=
              Nat.div_le_div_right (by omega)
            have hsplit : (level - x.rewardsBase) = (k - x.rewardsBase) + (level - k) := by omega
            rw [hsplit, Nat.add_mul]
            have := Nat.mul_le_mul_left (level - k) hmono
            omega
        obtain ⟨k1, k2, k3⟩ := key ls mid many hs' h4
        exact ⟨k1, by omega⟩
      obtain ⟨one', h5⟩ := hfin
      have hs' : mid.status ≠ .notParticipating := by rw [hb]; exact hs
      obtain ⟨he, hf, _⟩ := C49_exact_amount mid one' proto level hs' h5
      obtain ⟨i1, i2, i3⟩ := ih mid one' h5 h4
      have hle : one.microAlgos ≤ one'.microAlgos := by
        have hmb : mid.rewardsBase = l := by rw [hb]
        have hmm : mid.microAlgos = ad.microAlgos + (l - ad.rewardsBase) * (ad.microAlgos / proto.rewardUnit) := by
          rw [hb]
        rw [hd, hf]
        simp only
        rw [hmb]
        rw [hmb] at he
        have hmono : ad.microAlgos / proto.rewardUnit ≤ mid.microAlgos / proto.rewardUnit :=
          Nat.div_le_div_right (by omega)
        rw [show level - ad.rewardsBase = (l - ad.rewardsBase) + (level - l) by omega, Nat.add_mul]
        have := Nat.mul_le_mul_left (level - l) hmono
        omega
      refine ⟨by omega, ?_, ?_⟩
      · rw [← i2, hd, hf]
      · rw [← i3, hd, hf, hb]

/-- C50: when the whole reward units do not change on the way, the two payments are equal. -/
theorem C50_equal_when_units_fixed (ad mid one two : Account) (proto : Params) (l level : Nat)
    (h1 : withUpdatedRewards ad proto level = .ok one) (h2 : withUpdatedRewards ad proto l = .ok mid)
    (h3 : withUpdatedRewards mid proto level = .ok two)
    (hu : mid.microAlgos / proto.rewardUnit = ad.microAlgos / proto.rewardUnit) : one = two := by
  by_cases hs : ad.status = .notParticipating
  · rw [C49_not_participating ad proto _ hs] at h1 h2
    cases h1; cases h2
    rw [C49_not_participating ad proto _ hs] at h3
    cases h3; rfl
  · obtain ⟨a1, a2, _⟩ := C49_exact_amount ad one proto level hs h1
    obtain ⟨b1, b2, _⟩ := C49_exact_amount ad mid proto l hs h2
    have hs' : mid.status ≠ .notParticipating := by rw [b2]; exact hs
    obtain ⟨c1, c2, _⟩ := C49_exact_amount mid two proto level hs' h3
    have hmb : mid.rewardsBase = l := by rw [b2]
    have hmm : mid.microAlgos = ad.microAlgos + (l - ad.rewardsBase) * (ad.microAlgos / proto.rewardUnit) := by
      rw [b2]
    have hmr : mid.rewarded = (ad.rewarded + (l - ad.rewardsBase) * (ad.microAlgos / proto.rewardUnit)) % 2 ^ 64 := by
      rw [b2]
    have e1 : (level - ad.rewardsBase) * (ad.microAlgos / proto.rewardUnit) =
        (l - ad.rewardsBase) * (ad.microAlgos / proto.rewardUnit) +
        (level - l) * (ad.microAlgos / proto.rewardUnit) := by
      rw [hmb] at c1
      rw [← Nat.add_mul]; congr 1; omega
    rw [a2, c2, hu, hmb, hmm, hmr, e1, b2]
    simp only [Nat.mod_add_mod]
    congr 1
    · omega
    · congr 1; omega

/-- Example parameters with a small reward unit. -/
def toyParams : Params := { v30Base with rewardUnit := 10 }

/-- Example account. -/
def toyAccount : Account := ⟨.online, 105, 3, 7, 0, 2, 1, 1, ⟨2, 3⟩, 1⟩

example : withUpdatedRewards toyAccount toyParams 5 =
    .ok { toyAccount with microAlgos := 125, rewardsBase := 5, rewarded := 27 } := rfl

example : ∃ one many, withUpdatedRewards toyAccount toyParams 7 = .ok one ∧
    applyLevels toyAccount toyParams [5, 7] = .ok many ∧ one.microAlgos < many.microAlgos :=
  ⟨_, _, rfl, rfl, by decide⟩

/-! ## C51, C53: minimum balance and schemas -/

theorem satAdd_eq (a b : Nat) : satAdd64 a b = min (a + b) (2 ^ 64 - 1) := rfl
theorem satMul_eq (a b : Nat) : satMul64 a b = min (a * b) (2 ^ 64 - 1) := rfl

theorem sat_add_left (a b M : Nat) : min (min a M + b) M = min (a + b) M := by omega
theorem sat_add_right (a b M : Nat) : min (a + min b M) M = min (a + b) M := by omega

theorem sat_mul_right (a b M : Nat) : min (a * min b M) M = min (a * b) M := by
  by_cases h : b ≤ M
  · rw [Nat.min_eq_left h]
  · rw [Nat.min_eq_right (show M ≤ b by omega)]
    cases a with
    | zero => simp
    | succ a =>
      have h1 : M ≤ (a + 1) * M := Nat.le_mul_of_pos_left M (by omega)
      have h2 : (a + 1) * M ≤ (a + 1) * b := Nat.mul_le_mul_left _ (by omega)
      omega

/-- The unsaturated storage price of a schema. -/
def schemaPrice (p : Params) (uints bytes : Nat) : Nat :=
  p.schemaMinBalancePerEntry * (uints + bytes) + p.schemaUintMinBalance * uints + p.schemaBytesMinBalance * bytes

theorem schema_minBalance_eq (s : Schema) (p : Params) :
    s.minBalance p = min (schemaPrice p s.numUint s.numByteSlice) (2 ^ 64 - 1) := by
  simp only [Schema.minBalance, Schema.numEntries, satAdd_eq, satMul_eq, Nat.zero_add, sat_add_left, sat_add_right,
    sat_mul_right, schemaPrice]

/-- The unsaturated minimum balance: the base, plus one for each asset, created application, extra page and opted-in
application, plus the price of the schema. -/
def accountPrice (p : Params) (ad : Account) : Nat :=
  p.minBalance + p.minBalance * ad.assets + p.appFlatParamsMinBalance * (ad.appParams + ad.totalExtraAppPages) +
    p.appFlatOptInMinBalance * ad.appLocalStates + schemaPrice p ad.totalAppSchema.numUint ad.totalAppSchema.numByteSlice

/-- C51: the minimum balance is the exact sum of its parts, capped at the largest 64-bit number. -/
theorem C51_exact (ad : Account) (p : Params) : minBalance ad p = min (accountPrice p ad) (2 ^ 64 - 1) := by
  simp only [minBalance, schema_minBalance_eq, satAdd_eq, satMul_eq, sat_add_left, sat_add_right, accountPrice]
  congr 1
  rw [Nat.mul_add]; omega

theorem schemaPrice_mono (p : Params) {a b c d : Nat} (h1 : a ≤ c) (h2 : b ≤ d) :
    schemaPrice p a b ≤ schemaPrice p c d := by
  have e1 := Nat.mul_le_mul_left p.schemaMinBalancePerEntry (Nat.add_le_add h1 h2)
  have e2 := Nat.mul_le_mul_left p.schemaUintMinBalance h1
  have e3 := Nat.mul_le_mul_left p.schemaBytesMinBalance h2
  rw [schemaPrice, schemaPrice]; omega

/-- C51: the minimum balance fits 64 bits, is at least the protocol's minimum, and does not decrease when assets,
applications, extra pages or schema entries are added. -/
theorem C51_monotone (ad ad' : Account) (p : Params) (hp : p.minBalance < 2 ^ 64) (h1 : ad.assets ≤ ad'.assets)
    (h2 : ad.appParams ≤ ad'.appParams) (h3 : ad.appLocalStates ≤ ad'.appLocalStates)
    (h4 : ad.totalExtraAppPages ≤ ad'.totalExtraAppPages)
    (h5 : ad.totalAppSchema.numUint ≤ ad'.totalAppSchema.numUint)
    (h6 : ad.totalAppSchema.numByteSlice ≤ ad'.totalAppSchema.numByteSlice) :
    p.minBalance ≤ minBalance ad p ∧ minBalance ad p ≤ minBalance ad' p ∧ minBalance ad' p < 2 ^ 64 := by
  rw [C51_exact, C51_exact]
  have e1 := Nat.mul_le_mul_left p.minBalance h1
  have e2 := Nat.mul_le_mul_left p.appFlatParamsMinBalance (Nat.add_le_add h2 h4)
  have e3 := Nat.mul_le_mul_left p.appFlatOptInMinBalance h3
  have e4 := schemaPrice_mono p h5 h6
  have hA : accountPrice p ad ≤ accountPrice p ad' := by rw [accountPrice, accountPrice]; omega
  have hB : p.minBalance ≤ accountPrice p ad := by rw [accountPrice]; omega
  omega

example : minBalance toyAccount v30Base = 100000 + 2 * 100000 + 100000 + 100000 + 100000 +
    (25000 * 5 + 3500 * 2 + 25000 * 3) := by decide

/-- C53: schema addition is commutative, associative and saturating. -/
theorem C53_add_laws (a b c : Schema) :
    a.add b = b.add a ∧ (a.add b).add c = a.add (b.add c) ∧
    (a.add b).numUint = min (a.numUint + b.numUint) (2 ^ 64 - 1) ∧
    (a.add b).numByteSlice = min (a.numByteSlice + b.numByteSlice) (2 ^ 64 - 1) := by
  refine ⟨?_, ?_, rfl, rfl⟩
  · simp only [Schema.add, satAdd_eq, Nat.add_comm]
  · simp only [Schema.add, satAdd_eq, sat_add_left, sat_add_right, Nat.add_assoc]

/-- C53: subtracting what was added restores the schema exactly when nothing saturated (for 64-bit schemas). -/
theorem C53_sub_add (a b : Schema) (ha : a.numUint < 2 ^ 64) (ha' : a.numByteSlice < 2 ^ 64) :
    (a.numUint + b.numUint < 2 ^ 64 → a.numByteSlice + b.numByteSlice < 2 ^ 64 → (a.add b).sub b = a) ∧
    ((a.add b).sub b = a → b.numUint < 2 ^ 64 → b.numByteSlice < 2 ^ 64 →
      (a.numUint = 0 ∨ a.numUint + b.numUint < 2 ^ 64) ∧
      (a.numByteSlice = 0 ∨ a.numByteSlice + b.numByteSlice < 2 ^ 64)) := by
  obtain ⟨au, ab⟩ := a
  obtain ⟨bu, bb⟩ := b
  simp only [Schema.add, Schema.sub, satAdd_eq, Schema.mk.injEq] at *
  omega

/-- C53: addition, the entry count and the required balance are monotone, and bounded by 64 bits. -/
theorem C53_monotone (a b c : Schema) (p : Params) (h1 : a.numUint ≤ b.numUint)
    (h2 : a.numByteSlice ≤ b.numByteSlice) :
    (a.add c).numUint ≤ (b.add c).numUint ∧ (a.add c).numByteSlice ≤ (b.add c).numByteSlice ∧
    a.numEntries ≤ b.numEntries ∧ a.minBalance p ≤ b.minBalance p ∧
    b.numEntries = min (b.numUint + b.numByteSlice) (2 ^ 64 - 1) ∧
    b.minBalance p = min (schemaPrice p b.numUint b.numByteSlice) (2 ^ 64 - 1) := by
  have := schemaPrice_mono p h1 h2
  rw [schema_minBalance_eq, schema_minBalance_eq]
  simp only [Schema.add, Schema.numEntries, satAdd_eq]
  exact ⟨by omega, by omega, by omega, by omega, by omega, trivial⟩

/-- C53: the price of a sum of schemas is the sum of the prices, up to saturation. -/
theorem C53_price_additive (a b : Schema) (p : Params) (h1 : a.numUint + b.numUint < 2 ^ 64)
    (h2 : a.numByteSlice + b.numByteSlice < 2 ^ 64) :
    (a.add b).minBalance p = min (a.minBalance p + b.minBalance p) (2 ^ 64 - 1) := by
  simp only [schema_minBalance_eq, sat_add_left, sat_add_right, Schema.add, satAdd_eq]
  rw [Nat.min_eq_left (show a.numUint + b.numUint ≤ 2 ^ 64 - 1 by omega),
    Nat.min_eq_left (show a.numByteSlice + b.numByteSlice ≤ 2 ^ 64 - 1 by omega)]
  congr 1
  simp only [schemaPrice]; ring

example : (Schema.add ⟨3, 2 ^ 64 - 2⟩ ⟨4, 5⟩) = ⟨7, 2 ^ 64 - 1⟩ := by decide

/-! ## C52: normalized balance -/

/-- C52, partial: as long as the product fits 64 bits the normalized balance is the rounded-down quotient, zero for
accounts that are not online, and among accounts with the same rewards base it orders accounts like their balances with
rewards at any later level. Missing: accounts with different rewards bases, and larger products; for both the claim is
false (below). -/
theorem C52_normalized_partial (a b : Account) (p : Params) (hu : p.rewardUnit ≠ 0)
    (ha : a.microAlgos * p.rewardUnit < 2 ^ 64) (hb : b.microAlgos * p.rewardUnit < 2 ^ 64)
    (hoa : a.status = .online) (hob : b.status = .online) (hbase : a.rewardsBase = b.rewardsBase)
    (hlim : a.rewardsBase + p.rewardUnit < 2 ^ 64) :
    ∃ na nb, normalizedOnlineBalance a p = .ok na ∧ normalizedOnlineBalance b p = .ok nb ∧
      na = a.microAlgos * p.rewardUnit / (a.rewardsBase + p.rewardUnit) ∧
      (na < nb → ∀ level a' b', withUpdatedRewards a p level = .ok a' → withUpdatedRewards b p level = .ok b' →
        a'.microAlgos < b'.microAlgos) := by
  have key : ∀ c : Account, c.status = .online → c.microAlgos * p.rewardUnit < 2 ^ 64 →
      c.rewardsBase + p.rewardUnit < 2 ^ 64 →
      normalizedOnlineBalance c p = .ok (c.microAlgos * p.rewardUnit / (c.rewardsBase + p.rewardUnit)) := by
    intro c h1 h2 h3
    rw [normalizedOnlineBalance, if_neg (by simp [h1]), addU64, if_pos h3, Res.ok_bind, checkedMul64, if_pos h2]
    simp only
    rw [if_neg (by omega)]
  refine ⟨_, _, key a hoa ha hlim, key b hob hb (by rw [← hbase]; exact hlim), rfl, ?_⟩
  intro hlt level a' b' h1 h2
  have hlt' : a.microAlgos < b.microAlgos := by
    by_contra hc
    have := Nat.mul_le_mul_right p.rewardUnit (Nat.le_of_not_lt hc)
    have := Nat.div_le_div_right (c := a.rewardsBase + p.rewardUnit) this
    rw [hbase] at hlt this
    omega
  obtain ⟨_, e1, _⟩ := C49_exact_amount a a' p level (by simp [hoa]) h1
  obtain ⟨_, e2, _⟩ := C49_exact_amount b b' p level (by simp [hob]) h2
  rw [e1, e2]
  simp only
  rw [hbase]
  have := Nat.mul_le_mul_left (level - b.rewardsBase)
    (Nat.div_le_div_right (c := p.rewardUnit) (Nat.le_of_lt hlt'))
  omega

/-- C52: accounts that are not online have normalized balance zero. -/
theorem C52_not_online (a : Account) (p : Params) (h : a.status ≠ .online) :
    normalizedOnlineBalance a p = .ok 0 := by
  rw [normalizedOnlineBalance, if_pos h]

/-- C52 is violated: exactly which online accounts crash the computation. -/
theorem C52_crashes_iff (a : Account) (p : Params) (h : a.status = .online) (hu : p.rewardUnit ≠ 0) :
    normalizedOnlineBalance a p = .panic ↔
      2 ^ 64 ≤ a.rewardsBase + p.rewardUnit ∨ 2 ^ 64 ≤ a.microAlgos * p.rewardUnit := by
  have hl : u64Lim = 2 ^ 64 := rfl
  rw [normalizedOnlineBalance, if_neg (by simp [h]), addU64]
  by_cases h1 : a.rewardsBase + p.rewardUnit < u64Lim
  · rw [if_pos h1, Res.ok_bind, checkedMul64]
    by_cases h2 : a.microAlgos * p.rewardUnit < u64Lim
    · rw [if_pos h2]
      simp only
      rw [if_neg (by omega)]
      exact ⟨fun e => (by cases e), fun e => (by omega)⟩
    · rw [if_neg h2]; exact ⟨fun _ => Or.inr (by omega), fun _ => rfl⟩
  · rw [if_neg h1]; exact ⟨fun _ => Or.inl (by omega), fun _ => rfl⟩

/-- C52 is violated: under the current protocol an online account with 18.5 million algos crashes the computation. -/
theorem C52_crashes : ∃ a : Account, a.status = .online ∧ a.microAlgos = 18500000 * 1000000 ∧
    a.rewardsBase = 0 ∧ normalizedOnlineBalance a v30Base = .panic :=
  ⟨⟨.online, 18500000 * 1000000, 0, 0, 0, 0, 0, 0, ⟨0, 0⟩, 0⟩, rfl, rfl, rfl,
    (C52_crashes_iff _ _ rfl (by decide)).2 (Or.inr (by decide))⟩

/-- C52 is violated: the order by normalized balance can be the opposite of the order by balance with rewards. -/
theorem C52_order_violated : ∃ (a b a' b' : Account) (na nb level : Nat),
    a.status = .online ∧ b.status = .online ∧
    normalizedOnlineBalance a v30Base = .ok na ∧ normalizedOnlineBalance b v30Base = .ok nb ∧ na < nb ∧
    withUpdatedRewards a v30Base level = .ok a' ∧ withUpdatedRewards b v30Base level = .ok b' ∧
    b'.microAlgos < a'.microAlgos :=
  ⟨⟨.online, 2000000, 1000000, 0, 0, 0, 0, 0, ⟨0, 0⟩, 0⟩, ⟨.online, 1050000, 0, 0, 0, 0, 0, 0, ⟨0, 0⟩, 0⟩,
    ⟨.online, 6000000, 3000000, 4000000, 0, 0, 0, 0, ⟨0, 0⟩, 0⟩, ⟨.online, 4050000, 3000000, 3000000, 0, 0, 0, 0, ⟨0, 0⟩, 0⟩,
    1000000, 1050000, 3000000, rfl, rfl, by decide +kernel, by decide +kernel, by decide, by decide +kernel,
    by decide +kernel, by decide⟩

example : ∃ a b : Account, a.rewardsBase = b.rewardsBase ∧ a.rewardsBase ≠ 0 ∧ normalizedOnlineBalance a v30Base = .ok 4
    ∧ normalizedOnlineBalance b v30Base = .ok 5 :=
  ⟨⟨.online, 9, 1000000, 0, 0, 0, 0, 0, ⟨0, 0⟩, 0⟩, ⟨.online, 10, 1000000, 0, 0, 0, 0, 0, ⟨0, 0⟩, 0⟩,
    rfl, by decide, rfl, rfl⟩

/-! ## C54, C75: deltas and stores -/

/-- C54: a state delta is valid exactly when it is empty, or keys are allowed at all and every key, and every byte
value with and without its key, is within the limits. The iteration order does not matter. -/
theorem C54_valid_iff (sd : StateDelta) (p : Params) :
    isValid sd p = true ↔ (sd = [] ∨ p.maxAppKeyLen ≠ 0) ∧ ∀ e ∈ sd, e.1.length ≤ p.maxAppKeyLen ∧
      (e.2.action = .setBytes → e.2.bytes.length ≤ p.maxAppBytesValueLen ∧
        e.1.length + e.2.bytes.length ≤ p.maxAppSumKeyValueLens) := by
  have loop : ∀ sd : StateDelta, isValidLoop p sd = true ↔ ∀ e ∈ sd, e.1.length ≤ p.maxAppKeyLen ∧
      (e.2.action = .setBytes → e.2.bytes.length ≤ p.maxAppBytesValueLen ∧
        e.1.length + e.2.bytes.length ≤ p.maxAppSumKeyValueLens) := by
    intro sd
    induction sd with
    | nil => simp [isValidLoop]
    | cons e sd ih =>
      obtain ⟨key, delta⟩ := e
      rw [List.forall_mem_cons, ← ih, isValidLoop]
      by_cases h1 : key.length > p.maxAppKeyLen
      · rw [if_pos h1]; simp only [Bool.false_eq_true, false_iff]; rintro ⟨⟨h, _⟩, _⟩; omega
      · rw [if_neg h1]
        cases ha : delta.action with
        | setBytes =>
          simp only [true_implies]
          by_cases h2 : delta.bytes.length > p.maxAppBytesValueLen
          · rw [if_pos h2]; simp only [Bool.false_eq_true, false_iff]; rintro ⟨⟨_, h, _⟩, _⟩; omega
          · rw [if_neg h2]
            by_cases h3 : key.length + delta.bytes.length > p.maxAppSumKeyValueLens
            · rw [if_pos h3]; simp only [Bool.false_eq_true, false_iff]; rintro ⟨⟨_, _, h⟩, _⟩; omega
            · rw [if_neg h3]
              exact ⟨fun e => ⟨⟨by omega, by omega, by omega⟩, e⟩, fun e => e.2⟩
        | setUint => exact ⟨fun e => ⟨⟨by simp only; omega, by simp⟩, e⟩, fun e => e.2⟩
        | delete => exact ⟨fun e => ⟨⟨by simp only; omega, by simp⟩, e⟩, fun e => e.2⟩
  rw [isValid]
  by_cases h : (!sd.isEmpty && p.maxAppKeyLen == 0) = true
  · rw [if_pos h]
    simp only [Bool.and_eq_true, Bool.not_eq_true', List.isEmpty_eq_false_iff, beq_iff_eq] at h
    simp [h.1, h.2]
  · rw [if_neg h, loop]
    have : sd = [] ∨ p.maxAppKeyLen ≠ 0 := by
      by_contra hc
      push Not at hc
      apply h
      simp [hc.1, hc.2]
    simp [this]

/-- C54: validity does not depend on the iteration order. -/
theorem C54_order (sd sd' : StateDelta) (p : Params) (h : sd.Perm sd') : isValid sd p = isValid sd' p := by
  rw [Bool.eq_iff_iff, C54_valid_iff, C54_valid_iff]
  have e1 : sd = [] ↔ sd' = [] := by
    constructor
    · rintro rfl; exact h.symm.eq_nil
    · rintro rfl; exact h.eq_nil
  rw [e1]
  simp only [h.mem_iff]

/-- C54: a value survives the conversion to a delta and back (values are made by `new_bytes` and `new_uint`, which
leave the unused field empty), a set delta survives the conversion to a value and back up to its unused field, and
exactly deletions have no value. -/
theorem C54_conversion (v : TealValue) (d : ValueDelta) :
    (v = ⟨.bytes, v.bytes, 0⟩ ∨ v = ⟨.uint, [], v.uint⟩ → v.toValueDelta.toTealValue = some v) ∧
    (∀ b n, TealValue.newBytes b = ⟨.bytes, b, 0⟩ ∧ TealValue.newUint n = ⟨.uint, [], n⟩) ∧
    (v.tealType = .uint → v.toValueDelta = ⟨.setUint, [], v.uint⟩) ∧
    (v.tealType = .bytes → v.toValueDelta = ⟨.setBytes, v.bytes, 0⟩) ∧
    (d.toTealValue = none ↔ d.action = .delete) ∧
    (∀ w, d.toTealValue = some w → w.toValueDelta.action = d.action ∧
      (d.action = .setBytes → w.toValueDelta.bytes = d.bytes) ∧
      (d.action = .setUint → w.toValueDelta.uint = d.uint)) := by
  refine ⟨?_, fun _ _ => ⟨rfl, rfl⟩, ?_, ?_, ?_, ?_⟩
  · rintro (h | h) <;> (rw [h]; rfl)
  · intro h; rw [TealValue.toValueDelta, h]
  · intro h; rw [TealValue.toValueDelta, h]
  · obtain ⟨a, b, u⟩ := d
    cases a <;> simp [ValueDelta.toTealValue]
  · intro w hw
    obtain ⟨a, b, u⟩ := d
    cases a
    · simp only [ValueDelta.toTealValue, Option.some.injEq] at hw; subst hw; simp [TealValue.newBytes, TealValue.toValueDelta]
    · simp only [ValueDelta.toTealValue, Option.some.injEq] at hw; subst hw; simp [TealValue.newUint, TealValue.toValueDelta]
    · simp [ValueDelta.toTealValue] at hw

example : isValid [([1, 2], ⟨.setBytes, [3], 0⟩)] v30Base = true ∧ isValid [([1, 2], ⟨.setBytes, [3], 0⟩)] v23Base = false :=
  ⟨by decide, by decide⟩

/-- C75: the schema of a key/value store counts its byte values and its integers, whatever the iteration order. -/
theorem C75_schema_counts (kv : KeyValue) (h : kv.length < 2 ^ 64) :
    toStateSchema kv = .ok ⟨(kv.filter (fun e => e.2.tealType = .uint)).length,
      (kv.filter (fun e => e.2.tealType = .bytes)).length⟩ := by
  have key : ∀ (kv : KeyValue) (s : Schema), s.numUint + kv.length < 2 ^ 64 → s.numByteSlice + kv.length < 2 ^ 64 →
      kv.foldlM (fun s e => match e.2.tealType with
        | .bytes => do let n ← addU64 s.numByteSlice 1; .ok { s with numByteSlice := n }
        | .uint => do let n ← addU64 s.numUint 1; .ok { s with numUint := n }) s =
      (.ok ⟨s.numUint + (kv.filter (fun e => e.2.tealType = .uint)).length,
        s.numByteSlice + (kv.filter (fun e => e.2.tealType = .bytes)).length⟩ : Res Unit Schema) := by
    intro kv
    induction kv with
    | nil => intro s _ _; rfl
    | cons e kv ih =>
      intro s h1 h2
      obtain ⟨k, v⟩ := e
      have hl : u64Lim = 2 ^ 64 := rfl
      simp only [List.length_cons] at h1 h2
      rw [List.foldlM_cons]
      cases ht : v.tealType with
      | bytes =>
        simp only [ht]
        rw [addU64, if_pos (by omega)]
        simp only [Res.ok_bind, Res.pure_eq]
        rw [ih _ (by simp only; omega) (by simp only; omega)]
        simp [ht]; omega
      | uint =>
        simp only [ht]
        rw [addU64, if_pos (by omega)]
        simp only [Res.ok_bind, Res.pure_eq]
        rw [ih _ (by simp only; omega) (by simp only; omega)]
        simp [ht]; omega
  have := key kv ⟨0, 0⟩ (by simpa using h) (by simpa using h)
  simp only [Nat.zero_add] at this
  exact this

/-- C75: the entries of a store are counted once. -/
theorem C75_counts_total (kv : KeyValue) (s : Schema) (h : kv.length < 2 ^ 64) (hs : toStateSchema kv = .ok s) :
    s.numEntries = kv.length := by
  rw [C75_schema_counts kv h] at hs
  cases hs
  have : (kv.filter (fun e => decide (e.2.tealType = .uint))).length +
      (kv.filter (fun e => decide (e.2.tealType = .bytes))).length = kv.length := by
    clear h
    induction kv with
    | nil => rfl
    | cons e kv ih =>
      rw [List.filter_cons, List.filter_cons]
      cases ht : e.2.tealType <;> simp <;> omega
  simp only [Schema.numEntries, satAdd_eq]
  omega

example : toStateSchema [([1], .newUint 5), ([2], .newBytes [7]), ([3], .newUint 0)] = .ok ⟨2, 1⟩ := rfl

/-! ## C72 - C74: application addresses, status names, balance records -/

theorem beBytes_length (k n : Nat) : (beBytes k n).length = k := by
  induction k generalizing n with
  | zero => rfl
  | succ k ih => simp [beBytes, ih]

theorem beBytes_inj (k : Nat) : ∀ (m n : Nat), m < 256 ^ k → n < 256 ^ k → beBytes k m = beBytes k n → m = n := by
  induction k with
  | zero => intro m n hm hn _; simp at hm hn; omega
  | succ k ih =>
    intro m n hm hn h
    rw [Nat.pow_succ] at hm hn
    rw [beBytes, beBytes] at h
    obtain ⟨h1, h2⟩ := List.append_inj h (by rw [beBytes_length, beBytes_length])
    have h3 := ih _ _ (by omega) (by omega) h1
    have h4 := congrArg UInt8.toNat (List.cons.inj h2).1
    rw [UInt8.toNat_ofNat', UInt8.toNat_ofNat'] at h4
    omega

/-- C72: two applications with the same address are the same application, or the two explicit strings hashed for them
are a collision of the hash; and an application's address is never the hash of an object of another kind without such a
collision. -/
theorem C72_app_addresses (hash : Bytes → Bytes) (a b : Nat) (ha : a < 2 ^ 64) (hb : b < 2 ^ 64)
    (o : ToBeHashed) :
    (appAddress hash a = appAddress hash b → a = b ∨
      (hashRep ⟨.appIndex, beBytes 8 a⟩ ≠ hashRep ⟨.appIndex, beBytes 8 b⟩ ∧
        hash (hashRep ⟨.appIndex, beBytes 8 a⟩) = hash (hashRep ⟨.appIndex, beBytes 8 b⟩))) ∧
    (appAddress hash a = hashObj hash o → (o.id = .appIndex ∧ o.data = beBytes 8 a) ∨
      (hashRep ⟨.appIndex, beBytes 8 a⟩ ≠ hashRep o ∧ hash (hashRep ⟨.appIndex, beBytes 8 a⟩) = hash (hashRep o))) := by
  constructor
  · intro h
    by_cases he : hashRep ⟨.appIndex, beBytes 8 a⟩ = hashRep ⟨.appIndex, beBytes 8 b⟩
    · have := C14_domain_separation _ _ he
      injection this with _ h2
      exact Or.inl (beBytes_inj 8 a b (by omega) (by omega) h2)
    · exact Or.inr ⟨he, h⟩
  · intro h
    by_cases he : hashRep ⟨.appIndex, beBytes 8 a⟩ = hashRep o
    · have := C14_domain_separation _ _ he
      rw [← this]; exact Or.inl ⟨rfl, rfl⟩
    · exact Or.inr ⟨he, h⟩

example : beBytes 8 258 = [0, 0, 0, 0, 0, 0, 1, 2] := rfl

/-- C73: a string is read as a status exactly when it is that status' name. -/
theorem C73_status_names (s : List Char) (st : Status) : Status.ofStr s = some st ↔ s = st.str := by
  constructor
  · intro h
    rw [Status.ofStr] at h
    split at h
    · cases h; assumption
    · split at h
      · cases h; assumption
      · split at h
        · cases h; assumption
        · cases h
  · rintro rfl
    cases st <;> decide

/-- C73: different statuses have different names. -/
theorem C73_names_distinct (a b : Status) (h : a.str = b.str) : a = b := by
  have h1 := (C73_status_names a.str a).2 rfl
  have h2 := (C73_status_names a.str b).2 h
  rw [h1] at h2
  injection h2

/-- C74 is violated: all balance records have the same hash, whatever their address and contents. -/
theorem C74_hash_binds_nothing (hash : Bytes → Bytes) (r r' : BalanceRecord) :
    hashObj hash ⟨(balanceRecordHashed r).1, (balanceRecordHashed r).2⟩ =
      hashObj hash ⟨(balanceRecordHashed r').1, (balanceRecordHashed r').2⟩ := rfl

/-- C74: the claim is false for every hash function: there are different records with the same hashed string. -/
theorem C74_claim_false : ¬ ∀ r r' : BalanceRecord, balanceRecordHashed r = balanceRecordHashed r' → r = r' := by
  intro h
  have := h ⟨[1], toyAccount⟩ ⟨[2], toyAccount⟩ rfl
  injection this with h1
  cases h1

/-- C74, partial: a balance record's hashed string differs from that of any other kind of object. Missing: that it
identifies the record. -/
theorem C74_domain_partial (r : BalanceRecord) (o : ToBeHashed)
    (h : hashRep ⟨(balanceRecordHashed r).1, (balanceRecordHashed r).2⟩ = hashRep o) : o.id = .balanceRecord := by
  rw [← C14_domain_separation _ _ h]; rfl

/-! ## C106: voting stake and key dilution -/

/-- C106: exactly online accounts vote, with their whole balance and no more; a stake is never larger than what rewards
can make of it. -/
theorem C106_voting_stake (ad : Account) :
    (ad.status = .online → votingStake ad = ad.microAlgos) ∧ (ad.status ≠ .online → votingStake ad = 0) ∧
    votingStake ad ≤ ad.microAlgos := by
  rw [votingStake]
  cases h : ad.status <;> simp

/-- C106: collecting rewards never lowers an account's stake, and changes no account's right to vote. -/
theorem C106_rewards_keep_stake (ad ad' : Account) (proto : Params) (level : Nat)
    (h : withUpdatedRewards ad proto level = .ok ad') : ad'.status = ad.status ∧ votingStake ad ≤ votingStake ad' := by
  by_cases hs : ad.status = .notParticipating
  · rw [C49_not_participating ad proto level hs, Res.ok.injEq] at h
    rw [← h]; exact ⟨rfl, Nat.le_refl _⟩
  · have hx := (C49_exact_amount ad ad' proto level hs h)
    have hst : ad'.status = ad.status := by rw [hx.2.1]
    refine ⟨hst, ?_⟩
    rw [votingStake, votingStake, hst]
    cases ad.status <;> simp only [Nat.le_refl]
    rw [hx.2.1]
    exact Nat.le_add_right _ _

theorem builtin_dilution : builtin.all (fun e => e.2.defaultKeyDilution = 10000) = true := by decide +kernel

/-- C106: the dilution of an account is the one it registered, or the protocol's default if it registered none; under
every built-in protocol it is never zero, so mapping rounds to one-time keys never divides by zero. -/
theorem C106_key_dilution (ad : Account) (p : Params) :
    (ad.voteKeyDilution ≠ 0 → keyDilution ad p = ad.voteKeyDilution) ∧
    (ad.voteKeyDilution = 0 → keyDilution ad p = p.defaultKeyDilution) ∧
    (∀ v, lookup builtin v = some p → keyDilution ad p ≠ 0) := by
  refine ⟨fun h => by rw [keyDilution, if_neg h], fun h => by rw [keyDilution, if_pos h], fun v hv => ?_⟩
  have := List.all_eq_true.1 builtin_dilution (v, p) ((lookup_eq_some builtin_nodup v p).1 hv)
  simp only [decide_eq_true_eq] at this
  rw [keyDilution]
  split
  · rw [this]; decide
  · assumption

example : votingStake { toyAccount with status := .online, microAlgos := 7 } = 7 ∧
    votingStake { toyAccount with status := .offline, microAlgos := 7 } = 0 := by decide

/-! ## Cases -/

/-- A case of `C49_exact_amount` and `C49_succeeds_iff`: level 5, two levels above the account's. -/
example : ∃ ad', withUpdatedRewards toyAccount toyParams 5 = .ok ad' ∧ ad'.microAlgos = 105 + 2 * (105 / 10) := by
  obtain ⟨ad', h⟩ := (C49_succeeds_iff toyAccount toyParams 5 (by decide) (by decide)).2 (by decide)
  refine ⟨ad', h, ?_⟩
  rw [(C49_exact_amount toyAccount ad' toyParams 5 (by decide) h).2.1]
  decide

/-- A case of `C49_not_participating`. -/
example : withUpdatedRewards { toyAccount with status := .notParticipating } toyParams 5 =
    .ok { toyAccount with status := .notParticipating } := C49_not_participating _ _ _ rfl

/-- A case of `C49_idempotent`. -/
example : withUpdatedRewards { toyAccount with microAlgos := 125, rewardsBase := 5, rewarded := 27 } toyParams 5 =
    .ok { toyAccount with microAlgos := 125, rewardsBase := 5, rewarded := 27 } := C49_idempotent toyAccount _ toyParams 5 rfl

/-- A case of `C50_steps_pay_no_less`. -/
example : ∃ one many, withUpdatedRewards toyAccount toyParams 7 = .ok one ∧
    applyLevels toyAccount toyParams ([4, 5] ++ [7]) = .ok many ∧ one.microAlgos ≤ many.microAlgos :=
  ⟨_, _, rfl, rfl, (C50_steps_pay_no_less toyAccount _ _ toyParams [4, 5] 7 rfl rfl).1⟩

/-- A case of `C53_sub_add`. -/
example : (Schema.add ⟨3, 7⟩ ⟨4, 5⟩).sub ⟨4, 5⟩ = ⟨3, 7⟩ :=
  (C53_sub_add ⟨3, 7⟩ ⟨4, 5⟩ (by decide) (by decide)).1 (by decide) (by decide)

/-- A case of `C53_monotone`. -/
example : Schema.minBalance ⟨3, 7⟩ v30Base ≤ Schema.minBalance ⟨4, 7⟩ v30Base :=
  (C53_monotone ⟨3, 7⟩ ⟨4, 7⟩ ⟨1, 1⟩ v30Base (by decide) (by decide)).2.2.2.1

/-- A case of `C52_normalized_partial`: balances 100 and 105 at the same level; the order survives an update. -/
example : ∃ na nb, normalizedOnlineBalance { toyAccount with microAlgos := 100 } toyParams = .ok na ∧
    normalizedOnlineBalance toyAccount toyParams = .ok nb ∧ na < nb := by
  obtain ⟨na, nb, h1, h2, _, _⟩ := C52_normalized_partial { toyAccount with microAlgos := 100 } toyAccount toyParams (by decide)
    (by decide) (by decide) rfl rfl rfl (by decide)
  have e1 : normalizedOnlineBalance { toyAccount with microAlgos := 100 } toyParams = .ok 76 := by rfl
  have e2 : normalizedOnlineBalance toyAccount toyParams = .ok 80 := by rfl
  rw [e1] at h1; rw [e2] at h2
  cases h1; cases h2
  exact ⟨76, 80, e1, e2, by decide⟩

/-- A case of `C52_not_online`. -/
example : normalizedOnlineBalance { toyAccount with status := .offline } toyParams = .ok 0 := C52_not_online _ _ (by decide)

/-- A case of `C52_crashes_iff`: with the reward unit of the protocol, twenty million Algos are too much. -/
example : normalizedOnlineBalance { toyAccount with microAlgos := 20000000000000 } v30Base = .panic :=
  (C52_crashes_iff _ v30Base rfl (by decide)).2 (Or.inr (by decide))

/-- A case of `C54_order`. -/
example : isValid [([1], ⟨.setBytes, [3], 0⟩), ([2], ⟨.setUint, [], 4⟩)] v30Base =
    isValid [([2], ⟨.setUint, [], 4⟩), ([1], ⟨.setBytes, [3], 0⟩)] v30Base := C54_order _ _ _ (.swap _ _ _)

/-- A case of `C75_schema_counts`. -/
example : toStateSchema [([1], .newUint 5), ([2], .newBytes [7]), ([3], .newUint 0)] = .ok ⟨2, 1⟩ :=
  C75_schema_counts _ (by decide)

/-- A case of `C73_names_distinct`. -/
example : Status.str .offline ≠ Status.str .notParticipating := fun h => absurd (C73_names_distinct _ _ h) (by decide)

/-- A case of `C74_hash_binds_nothing` and `C74_domain_partial`: records of different accounts hash alike, but unlike a
transaction. -/
example (hash : Bytes → Bytes) (r r' : BalanceRecord) (b : Bytes) :
    hashObj hash ⟨(balanceRecordHashed r).1, (balanceRecordHashed r).2⟩ =
      hashObj hash ⟨(balanceRecordHashed r').1, (balanceRecordHashed r').2⟩ ∧
    hashRep ⟨(balanceRecordHashed r).1, (balanceRecordHashed r).2⟩ ≠ hashRep ⟨.transaction, b⟩ :=
  ⟨C74_hash_binds_nothing hash r r', fun h => absurd (C74_domain_partial r _ h) (by simp)⟩

/-- A case of `C106_rewards_keep_stake`. -/
example : votingStake toyAccount ≤ votingStake { toyAccount with microAlgos := 125, rewardsBase := 5, rewarded := 27 } :=
  (C106_rewards_keep_stake toyAccount _ toyParams 5 rfl).2

end Verif.Props
