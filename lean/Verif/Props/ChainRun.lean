import Verif.Props.Header
/-!
# C180: assembling blocks one after the other
-/

namespace Verif.Props
open Verif Verif.Consensus Verif.HashId Verif.Tx Verif.Block

/-! ## Specification -/

/-- Blocks assembled one on the other, each at a reading of the clock. -/
def assemble {AD : Type} (env : Env AD) (tbl : Protocols) : BlockHeader → List Nat → Res Unit (List (Block.Block AD))
  | _, [] => .ok []
  | prev, now :: clock => do
    let (b, _) ← newBlock env tbl now prev
    let bs ← assemble env tbl b.header clock
    .ok (b :: bs)

/-- Every block passes the checks against the one before it, and its contents match its header. -/
def AllAccepted {AD : Type} (env : Env AD) (tbl : Protocols) : BlockHeader → List (Block.Block AD) → Prop
  | _, [] => True
  | prev, b :: bs =>
    (preCheck env tbl b.header prev).1 = .ok () ∧ contentsMatchHeader env tbl b = .ok true ∧ AllAccepted env tbl b.header bs

/-- The timestamps of a chain: the clock, but not before the block before and at most 25 seconds after it. -/
def chainTimes (t : Nat) : List Nat → List Nat
  | [] => []
  | now :: clock =>
    let next := if t = 0 then now else max t (min now (t + 25))
    next :: chainTimes next clock

/-! ## C180 -/

theorem newest_params : ∃ p, lookup builtin .v30 = some p ∧ p.maxTimestampIncrement = 25 ∧ p.supportGenesisHash = true := by
  cases hl : lookup builtin .v30 with
  | some p =>
    have h1 : (lookup builtin .v30).map (·.maxTimestampIncrement) = some 25 := by decide +kernel
    have h2 : (lookup builtin .v30).map (·.supportGenesisHash) = some true := by decide +kernel
    rw [hl] at h1 h2
    exact ⟨p, rfl, by simpa using h1, by simpa using h2⟩
  | none =>
    have : (lookup builtin .v30).map (·.maxTimestampIncrement) = some 25 := by decide +kernel
    rw [hl] at this; simp at this

theorem assemble_newest {AD : Type} (env : Env AD) : ∀ (clock : List Nat) (prev : BlockHeader),
    prev.upgradeState = noProposal .v30 → prev.body.genesisId ≠ [] → prev.body.genesisHash ≠ List.replicate 32 0 →
    prev.body.round + clock.length < 2 ^ 64 → prev.body.timestamp + 25 < 2 ^ 64 → (∀ c ∈ clock, c + 25 < 2 ^ 64) →
    ∃ bs, assemble env builtin prev clock = .ok bs ∧ AllAccepted env builtin prev bs ∧
      bs.map (·.header.body.timestamp) = chainTimes prev.body.timestamp clock ∧
      bs.map (·.header.body.round) = (List.range clock.length).map (prev.body.round + 1 + ·) ∧
      ∀ b ∈ bs, b.header.upgradeState = noProposal .v30 ∧ b.header.body.genesisId = prev.body.genesisId ∧
        b.header.body.genesisHash = prev.body.genesisHash ∧ b.payset = [] ∧
        b.header.body.rewards.feeSink = prev.body.rewards.feeSink ∧
        b.header.body.rewards.rewardsPool = prev.body.rewards.rewardsPool
  | [], prev, _, _, _, _, _, _ => ⟨[], rfl, trivial, rfl, rfl, by simp⟩
  | now :: clock, prev, hs, hi, hg, hr, ht, hc => by
    rw [List.length_cons] at hr
    have hlim : u64Lim = 2 ^ 64 := rfl
    obtain ⟨b, hb, hbs⟩ := C34_newest_returns env now prev hs (by omega) ht
    obtain ⟨p, hp, hinc, hsup⟩ := newest_params
    have hb30 : b.header.upgradeState = noProposal .v30 := hbs.trans hs
    have hpb : lookup builtin b.header.upgradeState.current = some p := by rw [hb30]; exact hp
    obtain ⟨hpass, hcont⟩ := C34_new_block_passes_partial env builtin now prev prev b hb p hpb (by rw [hinc, hlim]; exact ht)
    obtain ⟨vote, params, _, hl, hts, _, _, hpay, hround, _, hid, hgh, _, hfs, hrp, _⟩ := newBlock_ok env builtin now prev prev b hb
    rw [hpb] at hl
    injection hl with hl; subst hl
    rw [hinc] at hts
    have htime : b.header.body.timestamp =
        if prev.body.timestamp = 0 then now else max prev.body.timestamp (min now (prev.body.timestamp + 25)) := by
      obtain ⟨c1, c2⟩ := C35_timestamp _ _ _ _ hts
      by_cases h0 : prev.body.timestamp = 0
      · rw [if_pos h0, c1 h0]
      · rw [if_neg h0]
        obtain ⟨d1, d2, d3, d4, d5⟩ := c2 (by omega)
        rcases Nat.lt_or_ge now prev.body.timestamp with h | h
        · rw [d4 h]; omega
        · rcases Nat.lt_or_ge (prev.body.timestamp + 25) now with h' | h'
          · rw [d5 h']; omega
          · rw [d3 h h']; omega
    have hnow := hc now (by simp)
    obtain ⟨bs, e1, e2, e3, e4, e5⟩ := assemble_newest env clock b.header hb30 (by rw [hid]; exact hi) (by rw [hgh]; exact hg)
      (by rw [hround]; omega) (by rw [htime]; split <;> omega) (fun c h => hc c (by simp [h]))
    refine ⟨b :: bs, ?_, ⟨hpass.2 ⟨hi, ⟨fun _ => hg, fun _ => hsup⟩⟩, hcont, e2⟩, ?_, ?_, ?_⟩
    · rw [assemble, hb, Res.ok_bind]
      simp only [e1, Res.ok_bind]
    · rw [List.map_cons, e3, chainTimes, htime]
    · rw [List.map_cons, e4, List.length_cons, List.range_succ_eq_map, List.map_cons, List.map_map, hround]
      refine congrArg₂ _ (by omega) (List.map_congr_left fun i _ => ?_)
      simp only [Function.comp]; omega
    · intro x hx
      rcases List.mem_cons.1 hx with rfl | hx
      · exact ⟨hb30, hid, hgh, hpay, hfs, hrp⟩
      · obtain ⟨f1, f2, f3, f4, f5, f6⟩ := e5 x hx
        exact ⟨f1, f2.trans hid, f3.trans hgh, f4, f5.trans hfs, f6.trans hrp⟩

/-- **C180**, the part that holds: on the newest protocol, blocks can be assembled on the genesis block one after the other
without end, at any readings of the clock; each is accepted; rounds count from 1, and timestamps follow the clock. Missing:
the other protocols (`C180_violated`). -/
theorem C180_chain_partial {AD : Type} (env : Env AD) (g : GenesisBalances) (id gh : Bytes) (b0 : Block.Block AD)
    (h0 : createBlock env builtin .v30 g id gh = .ok b0) (hid : id ≠ []) (hgh : gh ≠ List.replicate 32 0)
    (clock : List Nat) (hn : clock.length < 2 ^ 64) (ht : g.timestamp + 25 < 2 ^ 64) (hc : ∀ c ∈ clock, c + 25 < 2 ^ 64) :
    ∃ bs, assemble env builtin b0.header clock = .ok bs ∧ AllAccepted env builtin b0.header bs ∧
      bs.map (·.header.body.round) = (List.range clock.length).map (1 + ·) ∧
      bs.map (·.header.body.timestamp) = chainTimes g.timestamp clock ∧
      ∀ b ∈ bs, b.header.upgradeState.current = .v30 ∧ b.header.body.genesisId = id ∧ b.header.body.genesisHash = gh ∧
        b.header.body.rewards.feeSink = g.feeSink ∧ b.header.body.rewards.rewardsPool = g.rewardsPool := by
  obtain ⟨p, hp, hinc, hsup⟩ := newest_params
  obtain ⟨_, c2, _, _, c5, c6, c7, _, c9, c10, c11, _⟩ := C104_genesis_block env builtin .v30 p hp g id gh b0 h0
  obtain ⟨bs, e1, e2, e3, e4, e5⟩ := assemble_newest env clock b0.header c11 (by rw [c6]; exact hid)
    (by rw [c7 hsup]; exact hgh) (by rw [c2]; omega) (by rw [c5]; exact ht) hc
  refine ⟨bs, e1, e2, by rw [e4, c2], by rw [e3, c5], fun b hb => ?_⟩
  obtain ⟨f1, f2, f3, _, f5, f6⟩ := e5 b hb
  exact ⟨by rw [f1]; rfl, f2.trans c6, f3.trans (c7 hsup), f5.trans c9, f6.trans c10⟩

/-- **C180**, refuted for the other protocols: a network whose genesis names one of them never gets its first block. -/
theorem C180_violated {AD : Type} (env : Env AD) (v : Version) (p : Params) (hp : lookup builtin v = some p) (hv : v ≠ .v30)
    (g : GenesisBalances) (id gh : Bytes) (b0 : Block.Block AD) (h0 : createBlock env builtin v g id gh = .ok b0)
    (now : Nat) (clock : List Nat) : assemble env builtin b0.header (now :: clock) = .panic := by
  obtain ⟨_, c2, _, _, _, _, _, _, _, _, c11, _⟩ := C104_genesis_block env builtin v p hp g id gh b0 h0
  rw [assemble, C34_crashes env now b0.header v p hp c11 (by rw [c2]; decide) hv]
  rfl

/-- A genesis block, and a clock that stands still, jumps ahead and goes back. -/
example {AD : Type} (env : Env AD) : (∃ b, createBlock env builtin .v30 toyGenesis [103] (List.replicate 32 9) = .ok b) ∧
    chainTimes 1000 [1000, 5000, 900, 1030] = [1000, 1025, 1025, 1030] := by
  refine ⟨?_, by decide⟩
  obtain ⟨p, hp, _⟩ := newest_params
  have hq : p.rewardsRateRefreshInterval ≠ 0 := by
    have h : (lookup builtin .v30).map (fun p => decide (p.rewardsRateRefreshInterval ≠ 0)) = some true := by decide +kernel
    rw [hp] at h; simpa using h
  rw [createBlock, hp]
  simp [Res.ofOption_some, genesisRewards, toyGenesis, divU, hq]

/-- A case of `C180_chain_partial`: four blocks on the example genesis block, with that clock. -/
example {AD : Type} (env : Env AD) : ∃ b0 bs, createBlock env builtin .v30 toyGenesis [103] (List.replicate 32 9) = .ok b0 ∧
    assemble env builtin b0.header [1000, 5000, 900, 1030] = .ok bs ∧ AllAccepted env builtin b0.header bs ∧
    bs.map (·.header.body.round) = [1, 2, 3, 4] := by
  have h0 : ∃ b, createBlock env builtin .v30 toyGenesis [103] (List.replicate 32 9) = .ok b := by
    obtain ⟨p, hp, _⟩ := newest_params
    have hq : p.rewardsRateRefreshInterval ≠ 0 := by
      have h : (lookup builtin .v30).map (fun p => decide (p.rewardsRateRefreshInterval ≠ 0)) = some true := by decide +kernel
      rw [hp] at h; simpa using h
    rw [createBlock, hp]
    simp [Res.ofOption_some, genesisRewards, toyGenesis, divU, hq]
  obtain ⟨b0, h0⟩ := h0
  obtain ⟨bs, h1, h2, h3, _⟩ := C180_chain_partial env toyGenesis [103] (List.replicate 32 9) b0 h0 (by decide) (by decide)
    [1000, 5000, 900, 1030] (by decide) (by decide) (by decide)
  exact ⟨b0, bs, h0, h1, h2, h3⟩

end Verif.Props
