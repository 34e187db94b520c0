import Verif.Model.Block
import Verif.Props.Upgrade
import Verif.Props.Transaction
import Verif.Props.MerkleArray
/-!
# Properties of block headers and paysets (C34, C35, C38, C39, C76, C77, C80 - C82)
-/

namespace Verif.Props
open Verif Verif.Consensus Verif.HashId Verif.Tx Verif.Block

/-! ## C35: timestamps -/

/-- C35: the timestamp of a new block is the clock, moved into the window between the parent's timestamp and the latest
allowed one; after a zero timestamp it is the clock. -/
theorem C35_timestamp (now prev inc ts : Nat) (h : newTimestamp now prev inc = .ok ts) :
    (prev = 0 → ts = now) ∧
    (0 < prev → prev ≤ ts ∧ ts ≤ prev + inc ∧ (prev ≤ now → now ≤ prev + inc → ts = now) ∧
      (now < prev → ts = prev) ∧ (prev + inc < now → ts = prev + inc)) := by
  rw [newTimestamp] at h
  split at h
  · rename_i hp
    refine ⟨fun h0 => by omega, fun _ => ?_⟩
    split at h
    · simp only [Res.ok.injEq] at h
      omega
    · rw [addU64] at h
      split at h
      · rw [Res.ok_bind] at h
        simp only [Res.ok.injEq] at h
        subst h
        split <;> omega
      · simp at h
  · simp only [Res.ok.injEq] at h
    omega

/-- C35: no timestamp is too large: assembling the block crashes instead when the window leaves 64 bits, and only
then. -/
theorem C35_crash_iff (now prev inc : Nat) :
    newTimestamp now prev inc = .panic ↔ 0 < prev ∧ prev ≤ now ∧ u64Lim ≤ prev + inc := by
  rw [newTimestamp]
  split
  · rename_i hp
    split
    · simp; omega
    · rw [addU64]
      split
      · simp; omega
      · simp; omega
  · simp; omega

theorem addU64_ok {ε : Type} {a b c : Nat} (h : (addU64 a b : Res ε Nat) = .ok c) : c = a + b ∧ a + b < u64Lim := by
  rw [addU64] at h
  split at h
  · simp only [Res.ok.injEq] at h
    exact ⟨h.symm, by assumption⟩
  · simp at h

/-- The parts of a successful `Block::new`. -/
theorem newBlock_ok {AD : Type} (env : Env AD) (tbl : Protocols) (now : Nat) (prev prev' : BlockHeader) (b : Block.Block AD)
    (h : newBlock env tbl now prev = .ok (b, prev')) :
    ∃ vote params, applyUpgradeVote tbl prev.upgradeState (prev.body.round + 1) vote = .ok b.header.upgradeState ∧
      lookup tbl b.header.upgradeState.current = some params ∧
      newTimestamp now prev.body.timestamp params.maxTimestampIncrement = .ok b.header.body.timestamp ∧
      prev.body.round + 1 < u64Lim ∧
      prev' = ⟨prev.body, b.header.upgradeState⟩ ∧ b.payset = [] ∧
      b.header.body.round = prev.body.round + 1 ∧ b.header.body.branch = headerHash env prev ∧
      b.header.body.genesisId = prev.body.genesisId ∧ b.header.body.genesisHash = prev.body.genesisHash ∧
      b.header.body.upgradeVote = vote ∧ b.header.body.rewards.feeSink = prev.body.rewards.feeSink ∧
      b.header.body.rewards.rewardsPool = prev.body.rewards.rewardsPool ∧
      paysetCommit env tbl b = .ok b.header.body.txRoot := by
  rw [newBlock] at h
  obtain ⟨⟨vote, state⟩, h1, h⟩ := Res.bind_eq_ok.1 h
  simp only at h
  obtain ⟨params, h2, h⟩ := Res.bind_eq_ok.1 h
  obtain ⟨ts, h3, h⟩ := Res.bind_eq_ok.1 h
  obtain ⟨round, h4, h⟩ := Res.bind_eq_ok.1 h
  obtain ⟨root, h5, h⟩ := Res.bind_eq_ok.1 h
  simp only [Res.ok.injEq, Prod.mk.injEq] at h
  obtain ⟨rfl, rfl⟩ := h
  have h1' : processUpgradeParams tbl prev.body.round prev.upgradeState = .ok (vote, state) := by
    split at h1
    · rename_i x hx
      simp only [Res.ok.injEq] at h1
      rw [hx, h1]
    · simp at h1
  have hr : round = prev.body.round + 1 ∧ prev.body.round + 1 < u64Lim := by
    rw [addU64] at h4
    split at h4
    · simp only [Res.ok.injEq] at h4
      exact ⟨h4.symm, by assumption⟩
    · simp at h4
  have hp : lookup tbl state.current = some params := by
    cases hl : lookup tbl state.current with
    | none => rw [hl] at h2; simp [Res.ofOption] at h2
    | some q => rw [hl] at h2; simp only [Res.ofOption_some, Res.ok.injEq] at h2; rw [h2]
  refine ⟨vote, params, ?_, hp, h3, hr.2, rfl, rfl, hr.1, rfl, rfl, rfl, rfl, rfl, rfl, ?_⟩
  · rw [processUpgradeParams] at h1'
    obtain ⟨p0, _, h1'⟩ := Res.bind_eq_ok.1 h1'
    obtain ⟨r0, g1, h1'⟩ := Res.bind_eq_ok.1 h1'
    obtain ⟨v0, _, h1'⟩ := Res.bind_eq_ok.1 h1'
    obtain ⟨s0, g2, h1'⟩ := Res.bind_eq_ok.1 h1'
    simp only [Res.ok.injEq, Prod.mk.injEq] at h1'
    obtain ⟨rfl, rfl⟩ := h1'
    have : r0 = prev.body.round + 1 := by
      rw [addU64] at g1
      split at g1
      · simp only [Res.ok.injEq] at g1; exact g1.symm
      · simp at g1
    rw [← this]
    exact g2
  · -- the root of an empty payset does not depend on the header
    have herr : ∀ (b : Block.Block AD) e, paysetCommit env tbl b ≠ .err e := by
      intro b e he
      rw [paysetCommit] at he
      cases hl : lookup tbl b.header.upgradeState.current with
      | none => rw [hl] at he; simp [Res.ofOption] at he
      | some q =>
        rw [hl, Res.ofOption_some, Res.ok_bind] at he
        split at he
        · simp at he
        · have hml : ∀ l : List (Stib AD), merkleLeaves env tbl b.header l ≠ .err e := by
            intro l
            induction l with
            | nil => simp [merkleLeaves]
            | cons t l ih =>
              intro hx
              rw [merkleLeaves] at hx
              cases hd : decodeSignedTx tbl b.header t with
              | ok a =>
                rw [hd] at hx
                simp only [Res.ok_bind] at hx
                cases hm : merkleLeaves env tbl b.header l with
                | ok _ => rw [hm] at hx; simp at hx
                | err _ => exact ih (by rw [hm])
                | panic => rw [hm] at hx; simp at hx
              | err _ => rw [hd] at hx; simp at hx
              | panic => rw [hd] at hx; simp at hx
          cases hm : merkleLeaves env tbl b.header b.payset with
          | ok leaves =>
            rw [hm, Res.ok_bind] at he
            by_cases hn : leaves = []
            · rw [(C07_root_spec env.hash leaves).1 hn] at he; simp at he
            · obtain ⟨_, _, _, h⟩ := (C07_root_spec env.hash leaves).2 hn
              rw [h] at he; simp at he
          | err _ => exact hml _ (by rw [hm])
          | panic => rw [hm] at he; simp at he
        · simp at he
    split at h5
    · rename_i r hr'
      simp only [Res.ok.injEq] at h5
      subst h5
      exact hr'
    · rename_i e he
      exact absurd he (herr _ e)
    · simp at h5

/-- C35 for assembled blocks: never before the parent, never later than allowed, whatever the clock. -/
theorem C35_new_block {AD : Type} (env : Env AD) (tbl : Protocols) (now : Nat) (prev prev' : BlockHeader)
    (b : Block.Block AD) (h : newBlock env tbl now prev = .ok (b, prev')) (hp : 0 < prev.body.timestamp) :
    ∃ params, lookup tbl b.header.upgradeState.current = some params ∧
      prev.body.timestamp ≤ b.header.body.timestamp ∧
      b.header.body.timestamp ≤ prev.body.timestamp + params.maxTimestampIncrement := by
  obtain ⟨vote, params, _, h2, h3, _⟩ := newBlock_ok env tbl now prev prev' b h
  have := (C35_timestamp _ _ _ _ h3).2 hp
  exact ⟨params, h2, this.1, this.2.1⟩

/-- C35 for validated blocks: a header accepted by the checks is within the same window. -/
theorem C35_checked {AD : Type} (env : Env AD) (tbl : Protocols) (self prev : BlockHeader)
    (h : (preCheck env tbl self prev).1 = .ok ()) (hp : 0 < prev.body.timestamp) :
    ∃ params, lookup tbl self.upgradeState.current = some params ∧
      prev.body.timestamp ≤ self.body.timestamp ∧
      self.body.timestamp ≤ prev.body.timestamp + params.maxTimestampIncrement := by
  rw [preCheck] at h
  cases hl : lookup tbl self.upgradeState.current with
  | none => rw [hl] at h; simp at h
  | some params =>
    rw [hl] at h
    simp only at h
    refine ⟨params, rfl, ?_⟩
    split at h
    · split at h
      · simp at h
      · split at h
        · simp at h
        · split at h
          · simp at h
          · simp at h
          · simp only at h
            split at h
            · simp at h
            · obtain ⟨u, h1, _⟩ := Res.bind_eq_ok.1 h
              rw [checkTimestamp, if_pos hp] at h1
              split at h1
              · simp at h1
              · rw [addU64] at h1
                split at h1
                · rw [Res.ok_bind] at h1
                  split at h1
                  · simp at h1
                  · omega
                · simp at h1
    · simp at h

example : newTimestamp 100 50 25 = .ok 75 ∧ newTimestamp 40 50 25 = .ok 50 ∧ newTimestamp 60 50 25 = .ok 60 := by decide

/-! ## C34: new blocks pass the checks -/

/-- The genesis fields that a chain must carry under a protocol: an id, and a hash exactly if the protocol supports it. -/
def GenesisFits (p : Params) (h : HeaderBody) : Prop :=
  h.genesisId ≠ [] ∧ (p.supportGenesisHash = true ↔ h.genesisHash ≠ List.replicate 32 0)

/-- C34: if assembling a block on a parent returns at all, the new header passes every check against that parent, exactly
when the parent carries the genesis fields that the protocol of the new block asks for. Missing: that it returns, see
`C34_crashes`. -/
theorem C34_new_block_passes_partial {AD : Type} (env : Env AD) (tbl : Protocols) (now : Nat) (prev prev' : BlockHeader)
    (b : Block.Block AD) (h : newBlock env tbl now prev = .ok (b, prev')) (params : Params)
    (hparams : lookup tbl b.header.upgradeState.current = some params)
    (hbig : prev.body.timestamp + params.maxTimestampIncrement < u64Lim) :
    ((preCheck env tbl b.header prev).1 = .ok () ↔ GenesisFits params prev.body) ∧
    contentsMatchHeader env tbl b = .ok true := by
  obtain ⟨vote, params', hv, hl, hts, hr, hprev', hpay, hround, hbranch, hid, hgh, hvote, _, _, hroot⟩ :=
    newBlock_ok env tbl now prev prev' b h
  rw [hparams] at hl
  cases hl
  constructor
  · have hts' : checkTimestamp params b.header.body prev.body = .ok () := by
      rw [checkTimestamp]
      split
      · rename_i hp
        have := (C35_timestamp _ _ _ _ hts).2 hp
        rw [if_neg (by omega), addU64, if_pos hbig, Res.ok_bind, if_neg (by omega)]
      · rfl
    have hmain : (preCheck env tbl b.header prev).1 = checkGenesis params b.header.body prev.body := by
      rw [preCheck, hparams]
      simp only
      rw [addU64, if_pos hr]
      simp only
      rw [if_neg (by rw [hround]; simp), if_neg (by rw [hbranch]; simp), hvote, hv]
      simp only
      rw [if_neg (by simp), hts', Res.ok_bind]
    rw [hmain, checkGenesis, hid, hgh, GenesisFits]
    have hz : Block.zeroHash = List.replicate 32 0 := rfl
    rw [hz]
    generalize List.replicate 32 (0 : UInt8) = z
    by_cases h1 : prev.body.genesisId = []
    · simp [h1]
    · rw [if_neg h1, if_neg (by simp)]
      by_cases h2 : params.supportGenesisHash = true
      · rw [if_pos h2]
        by_cases h3 : prev.body.genesisHash = z
        · simp [h1, h2, h3]
        · rw [if_neg h3, if_neg (by simp)]
          simp [h1, h2, h3]
      · rw [if_neg h2]
        by_cases h3 : prev.body.genesisHash = z
        · simp [h1, h2, h3]
        · simp [h1, h2, h3]
  · rw [contentsMatchHeader, hroot]
    simp

/-- C34 is violated: on a parent without pending proposal, as every genesis block is, assembling a block crashes for
every built-in protocol but the newest. -/
theorem C34_crashes {AD : Type} (env : Env AD) (now : Nat) (prev : BlockHeader) (v : Version) (p : Params)
    (hp : lookup builtin v = some p) (hs : prev.upgradeState = noProposal v) (hr : prev.body.round + 1 < 2 ^ 64)
    (hv : v ≠ .v30) : newBlock env builtin now prev = .panic := by
  rw [newBlock, hs]
  have := (C31_only_newest_runs v p hp prev.body.round hr).not.2 hv
  cases hx : processUpgradeParams builtin prev.body.round (noProposal v) with
  | ok x => exact absurd ⟨x, hx⟩ this
  | err e => simp
  | panic => simp

/-- C34, the exact condition for the crash: assembling a block fails only by crashing, namely when no vote can be chosen and
applied, when the protocol that results is unknown or has no payset commitment, or when the time window overflows. -/
theorem C34_crash_iff {AD : Type} (env : Env AD) (tbl : Protocols) (now : Nat) (prev : BlockHeader) :
    (∀ e, newBlock env tbl now prev ≠ .err e) ∧
    (newBlock env tbl now prev = .panic ↔
      (∀ x, processUpgradeParams tbl prev.body.round prev.upgradeState ≠ .ok x) ∨
      ∃ vote s, processUpgradeParams tbl prev.body.round prev.upgradeState = .ok (vote, s) ∧
        ∀ p, lookup tbl s.current = some p →
          p.paysetCommit = .unsupported ∨
          (0 < prev.body.timestamp ∧ prev.body.timestamp ≤ now ∧ 2 ^ 64 ≤ prev.body.timestamp + p.maxTimestampIncrement)) := by
  rw [newBlock]
  cases hx : processUpgradeParams tbl prev.body.round prev.upgradeState with
  | err e => simp
  | panic => simp
  | ok x =>
    obtain ⟨vote, s⟩ := x
    simp only [Res.ok_bind]
    have hround : prev.body.round + 1 < u64Lim := by
      rw [processUpgradeParams] at hx
      obtain ⟨_, _, hx⟩ := Res.bind_eq_ok.1 hx
      obtain ⟨r, hr, _⟩ := Res.bind_eq_ok.1 hx
      rw [addU64] at hr
      split at hr
      · assumption
      · cases hr
    cases hl : lookup tbl s.current with
    | none => exact ⟨fun e h => (nomatch h), fun _ => Or.inr ⟨vote, s, rfl, fun p h => (by rw [hl] at h; cases h)⟩, fun _ => rfl⟩
    | some p =>
      rw [Res.ofOption_some, Res.ok_bind]
      have hlast : ∀ P : Prop, ((∀ x, (Res.ok (vote, s) : UpRes (UpgradeVote × UpgradeState)) ≠ .ok x) ∨
          ∃ vote' s', (Res.ok (vote, s) : UpRes (UpgradeVote × UpgradeState)) = .ok (vote', s') ∧
            ∀ q, lookup tbl s'.current = some q → q.paysetCommit = .unsupported ∨ (0 < prev.body.timestamp ∧
              prev.body.timestamp ≤ now ∧ 2 ^ 64 ≤ prev.body.timestamp + q.maxTimestampIncrement)) ↔
          (p.paysetCommit = .unsupported ∨ (0 < prev.body.timestamp ∧
              prev.body.timestamp ≤ now ∧ 2 ^ 64 ≤ prev.body.timestamp + p.maxTimestampIncrement)) := by
        intro _
        constructor
        · rintro (h | ⟨v', s', h, h2⟩)
          · exact absurd rfl (h _)
          · injection h with h
            injection h with h3 h4
            subst h4
            exact h2 p hl
        · intro h
          exact Or.inr ⟨vote, s, rfl, fun q hq => by rw [hl] at hq; injection hq with hq; subst hq; exact h⟩
      rw [hlast True]
      have hc := C35_crash_iff now prev.body.timestamp p.maxTimestampIncrement
      have hu : u64Lim = 2 ^ 64 := rfl
      rw [hu] at hc
      cases ht : newTimestamp now prev.body.timestamp p.maxTimestampIncrement with
      | err e =>
        rw [newTimestamp] at ht
        split at ht
        · split at ht
          · cases ht
          · rw [addU64] at ht
            split at ht <;> simp at ht
        · cases ht
      | panic => exact ⟨fun e h => (nomatch h), fun _ => Or.inr (hc.1 ht), fun _ => rfl⟩
      | ok ts =>
        have hn : ¬ (0 < prev.body.timestamp ∧ prev.body.timestamp ≤ now ∧
            2 ^ 64 ≤ prev.body.timestamp + p.maxTimestampIncrement) := fun h => by
          have := hc.2 h
          rw [ht] at this
          cases this
        rw [Res.ok_bind, addU64, if_pos hround, Res.ok_bind]
        simp only [paysetCommit, hl, Res.ofOption_some, Res.ok_bind]
        cases hm : p.paysetCommit with
        | flat =>
          refine ⟨fun e h => (nomatch h), fun h => (nomatch h), ?_⟩
          rintro (h | h)
          · cases h
          · exact absurd h hn
        | merkle =>
          simp only [merkleLeaves, Res.ok_bind]
          rw [(C07_root_spec env.hash []).1 rfl]
          refine ⟨fun e h => (nomatch h), fun h => (nomatch h), ?_⟩
          rintro (h | h)
          · cases h
          · exact absurd h hn
        | unsupported => exact ⟨fun e h => (nomatch h), fun _ => Or.inl rfl, fun _ => rfl⟩

/-- A case of the crash: a parent at the last round leaves no round for the new block. -/
example {AD : Type} (env : Env AD) (tbl : Protocols) (now : Nat) (prev : BlockHeader)
    (h : prev.body.round = 2 ^ 64 - 1) : newBlock env tbl now prev = .panic := by
  refine (C34_crash_iff env tbl now prev).2.2 (.inl fun x hx => ?_)
  rw [processUpgradeParams] at hx
  obtain ⟨_, _, hx⟩ := Res.bind_eq_ok.1 hx
  obtain ⟨r, hr, _⟩ := Res.bind_eq_ok.1 hx
  rw [addU64, h] at hr
  rw [if_neg (by decide)] at hr
  cases hr

/-- C34, where it does return: on a parent of the newest protocol without pending proposal, for every clock reading, as
long as round and timestamp window fit 64 bits. -/
theorem C34_newest_returns {AD : Type} (env : Env AD) (now : Nat) (prev : BlockHeader)
    (hs : prev.upgradeState = noProposal .v30) (hr : prev.body.round + 1 < 2 ^ 64)
    (ht : prev.body.timestamp + 25 < 2 ^ 64) :
    ∃ b, newBlock env builtin now prev = .ok (b, prev) ∧ b.header.upgradeState = prev.upgradeState := by
  obtain ⟨p, hp⟩ : ∃ p, lookup builtin .v30 = some p := by
    cases hl : lookup builtin .v30 with
    | some p => exact ⟨p, rfl⟩
    | none =>
      have : (lookup builtin .v30).map (·.maxTimestampIncrement) = some 25 := by decide +kernel
      rw [hl] at this; simp at this
  obtain ⟨⟨vote, s'⟩, hx⟩ := (C31_only_newest_runs .v30 p hp prev.body.round hr).2 rfl
  have hinc : p.maxTimestampIncrement = 25 := by
    have : (lookup builtin .v30).map (·.maxTimestampIncrement) = some 25 := by decide +kernel
    rw [hp] at this
    simpa using this
  have hcm : p.paysetCommit = .merkle := by
    have : (lookup builtin .v30).map (·.paysetCommit) = some .merkle := by decide +kernel
    rw [hp] at this
    simpa using this
  have hs' : s' = noProposal .v30 := by
    have h := hx
    rw [processUpgradeParams] at h
    obtain ⟨p0, _, h⟩ := Res.bind_eq_ok.1 h
    obtain ⟨r0, g1, h⟩ := Res.bind_eq_ok.1 h
    obtain ⟨v0, _, h⟩ := Res.bind_eq_ok.1 h
    obtain ⟨s0, g2, h⟩ := Res.bind_eq_ok.1 h
    simp only [Res.ok.injEq, Prod.mk.injEq] at h
    obtain ⟨rfl, rfl⟩ := h
    have hr0 : r0 ≠ 0 := by
      have := (addU64_ok g1).1
      omega
    obtain ⟨k, rfl⟩ : ∃ k, r0 = k + 1 := ⟨r0 - 1, by omega⟩
    refine C31_never_upgrades builtin .v30 k [v0] s0 ?_
    rw [runVotes, g2, Res.ok_bind, runVotes]
  subst hs'
  obtain ⟨ts, hts⟩ : ∃ ts, newTimestamp now prev.body.timestamp 25 = .ok ts := by
    cases hn : newTimestamp now prev.body.timestamp 25 with
    | ok ts => exact ⟨ts, rfl⟩
    | err e =>
      rw [newTimestamp] at hn
      split at hn
      · split at hn
        · simp at hn
        · rw [addU64] at hn; split at hn <;> simp at hn
      · simp at hn
    | panic =>
      have := (C35_crash_iff _ _ _).1 hn
      have hu : u64Lim = 2 ^ 64 := rfl
      omega
  have hprev : prev = ⟨prev.body, noProposal .v30⟩ := by
    rw [← hs]
  rw [newBlock, hs, hx]
  simp only [Res.ok_bind]
  rw [show (noProposal Version.v30).current = .v30 from rfl, hp, Res.ofOption_some, Res.ok_bind, hinc, hts, Res.ok_bind,
    addU64, if_pos (show prev.body.round + 1 < u64Lim from hr), Res.ok_bind]
  simp only [paysetCommit]
  rw [show (noProposal Version.v30).current = .v30 from rfl, hp, Res.ofOption_some, Res.ok_bind, hcm]
  simp only [merkleLeaves, Res.ok_bind]
  rw [(C07_root_spec env.hash []).1 rfl]
  simp only [Res.ok_bind]
  exact ⟨_, by rw [← hprev], rfl⟩

/-! ## C38: transactions in blocks -/

/-- C38: a transaction that can be encoded into a block decodes, with the same header, to itself. -/
theorem C38_roundtrip {AD : Type} (tbl : Protocols) (h : BlockHeader) (st : SignedTx) (ad : AD) (stb : Stib AD)
    (he : encodeSignedTx tbl h st ad = .ok stb) : decodeSignedTx tbl h stb = .ok ⟨st, ad⟩ := by
  rw [encodeSignedTx] at he
  rw [decodeSignedTx]
  cases hl : lookup tbl h.upgradeState.current with
  | none => rw [hl] at he; simp [Res.ofOption] at he
  | some p =>
    rw [hl] at he
    simp only [Res.ofOption_some, Res.ok_bind] at he ⊢
    split at he
    · rename_i hs
      simp only [Res.ok.injEq] at he
      subst he
      rw [if_pos hs]
    · rename_i hs
      rw [if_neg hs]
      obtain ⟨⟨id, hasId⟩, h1, he⟩ := Res.bind_eq_ok.1 he
      obtain ⟨⟨gh, hasHash⟩, h2, he⟩ := Res.bind_eq_ok.1 he
      simp only [Res.ok.injEq] at he
      subst he
      simp only
      have hid : id = [] ∧ (if hasId = true then h.body.genesisId else id) = st.tx.header.genesisId := by
        rw [stripGenesisId] at h1
        split at h1
        · split at h1
          · simp only [Res.ok.injEq, Prod.mk.injEq] at h1
            obtain ⟨rfl, rfl⟩ := h1
            refine ⟨rfl, ?_⟩
            rw [if_pos rfl]
            exact (by assumption : st.tx.header.genesisId = h.body.genesisId).symm
          · simp at h1
        · simp only [Res.ok.injEq, Prod.mk.injEq] at h1
          obtain ⟨rfl, rfl⟩ := h1
          exact ⟨Classical.not_not.1 (by assumption), by simp⟩
      have hgh : gh = Block.zeroHash ∧ ¬ (p.requireGenesisHash = true ∧ hasHash = true) ∧
          (if p.requireGenesisHash = true ∨ hasHash = true then h.body.genesisHash else gh) = st.tx.header.genesisHash := by
        rw [stripGenesisHash] at h2
        split at h2
        · split at h2
          · simp only [Res.ok.injEq, Prod.mk.injEq] at h2
            obtain ⟨rfl, rfl⟩ := h2
            have heq : st.tx.header.genesisHash = h.body.genesisHash := by assumption
            clear he
            cases hr : p.requireGenesisHash <;> simp [heq]
          · simp at h2
        · split at h2
          · simp at h2
          · simp only [Res.ok.injEq, Prod.mk.injEq] at h2
            obtain ⟨rfl, rfl⟩ := h2
            have hr : ¬ p.requireGenesisHash = true := by assumption
            have hz : ¬ st.tx.header.genesisHash ≠ Block.zeroHash := by assumption
            exact ⟨Classical.not_not.1 hz, by simp, by simp [hr]⟩
      rw [if_neg (by rw [hid.1]; simp), if_neg (by rw [hgh.1]; simp), if_neg hgh.2.1, hid.2, hgh.2.2]

/-- C38: exactly which transactions can be encoded: those of the same network, with a genesis hash where required.
Protocols that store transactions unchanged take all. -/
theorem C38_encodable_iff {AD : Type} (tbl : Protocols) (h : BlockHeader) (p : Params)
    (hp : lookup tbl h.upgradeState.current = some p) (st : SignedTx) (ad : AD) :
    (∃ stb, encodeSignedTx tbl h st ad = .ok stb) ↔
      (p.supportSignedTxInBlock = true →
        (st.tx.header.genesisId = [] ∨ st.tx.header.genesisId = h.body.genesisId) ∧
        (st.tx.header.genesisHash = h.body.genesisHash ∨ st.tx.header.genesisHash = List.replicate 32 0) ∧
        (p.requireGenesisHash = true → st.tx.header.genesisHash ≠ List.replicate 32 0)) := by
  have hz : Block.zeroHash = List.replicate 32 0 := rfl
  rw [encodeSignedTx, hp]
  simp only [Res.ofOption_some, Res.ok_bind]
  cases hs : p.supportSignedTxInBlock
  · simp
  · simp only [not_true_eq_false, if_false, true_imp_iff]
    rw [stripGenesisId, stripGenesisHash, hz]
    by_cases h1 : st.tx.header.genesisId = [] <;> by_cases h2 : st.tx.header.genesisId = h.body.genesisId <;>
      by_cases h3 : st.tx.header.genesisHash = List.replicate 32 0 <;>
      by_cases h4 : st.tx.header.genesisHash = h.body.genesisHash <;>
      cases hr : p.requireGenesisHash <;>
      simp_all

/-- C38: the stored form. Protocols that store transactions unchanged set no flag; the others leave out the genesis id if
there is one and say so, and leave out the genesis hash and say so unless it is required anyway. -/
theorem C38_stored {AD : Type} (tbl : Protocols) (h : BlockHeader) (p : Params)
    (hp : lookup tbl h.upgradeState.current = some p) (st : SignedTx) (ad : AD) (stb : Stib AD)
    (he : encodeSignedTx tbl h st ad = .ok stb) :
    (p.supportSignedTxInBlock = false → stb = ⟨⟨st, ad⟩, false, false⟩) ∧
    (p.supportSignedTxInBlock = true → stb.tx.ad = ad ∧
      stb.tx.tx = { st with tx := { st.tx with header := { st.tx.header with
        genesisId := [], genesisHash := List.replicate 32 0 } } } ∧
      (stb.hasGenesisId = true ↔ st.tx.header.genesisId ≠ []) ∧
      (stb.hasGenesisHash = true ↔ st.tx.header.genesisHash ≠ List.replicate 32 0 ∧ p.requireGenesisHash = false)) := by
  have hz : Block.zeroHash = List.replicate 32 0 := rfl
  rw [encodeSignedTx, hp] at he
  simp only [Res.ofOption_some, Res.ok_bind] at he
  cases hs : p.supportSignedTxInBlock
  · simp only [hs, Bool.false_eq_true, not_false_eq_true, if_true, Res.ok.injEq] at he
    exact ⟨fun _ => he.symm, fun hc => by cases hc⟩
  · refine ⟨fun hc => (by cases hc), fun _ => ?_⟩
    simp only [hs, not_true_eq_false, if_false] at he
    rw [stripGenesisId, stripGenesisHash, hz] at he
    by_cases h1 : st.tx.header.genesisId = [] <;> by_cases h2 : st.tx.header.genesisId = h.body.genesisId <;>
      by_cases h3 : st.tx.header.genesisHash = List.replicate 32 0 <;>
      by_cases h4 : st.tx.header.genesisHash = h.body.genesisHash <;>
      cases hr : p.requireGenesisHash <;>
      simp_all <;> (subst he; simp_all)

/-- C38: nothing but the genesis fields is touched, in either direction. -/
theorem C38_rest_untouched {AD : Type} (tbl : Protocols) (h : BlockHeader) (stb : Stib AD) (d : Stad AD)
    (hd : decodeSignedTx tbl h stb = .ok d) :
    d.ad = stb.tx.ad ∧
    ∃ id gh, d.tx = { stb.tx.tx with tx := { stb.tx.tx.tx with
      header := { stb.tx.tx.tx.header with genesisId := id, genesisHash := gh } } } := by
  rw [decodeSignedTx] at hd
  cases hl : lookup tbl h.upgradeState.current with
  | none => rw [hl] at hd; simp [Res.ofOption] at hd
  | some p =>
    rw [hl] at hd
    simp only [Res.ofOption_some, Res.ok_bind] at hd
    split at hd
    · simp only [Res.ok.injEq] at hd
      subst hd
      exact ⟨rfl, stb.tx.tx.tx.header.genesisId, stb.tx.tx.tx.header.genesisHash, rfl⟩
    · split at hd
      · simp at hd
      · split at hd
        · simp at hd
        · split at hd
          · simp at hd
          · simp only [Res.ok.injEq] at hd
            subst hd
            exact ⟨rfl, _, _, rfl⟩

/-! ## C81: one stored form per transaction -/

/-- C81: under protocols that strip the genesis fields, on a network with genesis id and hash, two stored transactions
that decode to the same transaction are the same. -/
theorem C81_unique_form_partial {AD : Type} (tbl : Protocols) (h : BlockHeader) (p : Params)
    (hp : lookup tbl h.upgradeState.current = some p) (hs : p.supportSignedTxInBlock = true)
    (hid : h.body.genesisId ≠ []) (hgh : h.body.genesisHash ≠ List.replicate 32 0) (a b : Stib AD) (d : Stad AD)
    (ha : decodeSignedTx tbl h a = .ok d) (hb : decodeSignedTx tbl h b = .ok d) : a = b := by
  have key : ∀ s : Stib AD, decodeSignedTx tbl h s = .ok d → encodeSignedTx tbl h d.tx d.ad = .ok s := by
    intro s hsd
    rw [decodeSignedTx, hp] at hsd
    simp only [Res.ofOption_some, Res.ok_bind, hs, not_true_eq_false, if_false] at hsd
    split at hsd
    · simp at hsd
    · rename_i h1
      split at hsd
      · simp at hsd
      · rename_i h2
        split at hsd
        · simp at hsd
        · rename_i h3
          simp only [Res.ok.injEq] at hsd
          subst hsd
          rw [encodeSignedTx, hp]
          simp only [Res.ofOption_some, Res.ok_bind, hs, not_true_eq_false, if_false]
          replace h1 := Classical.not_not.1 h1
          replace h2 := Classical.not_not.1 h2
          have hz : Block.zeroHash = List.replicate 32 0 := rfl
          rw [hz] at h2
          obtain ⟨⟨⟨sig, sx, sy, ⟨⟨snd, fee, fv, lv, note, gid, ghash, grp, lx, rk⟩, fl⟩, sw⟩, ad⟩, f1, f2⟩ := s
          simp only at h1 h2 h3 ⊢
          subst h1 h2
          rw [stripGenesisId, stripGenesisHash, hz]
          clear ha hb hz
          generalize List.replicate 32 (0 : UInt8) = z at *
          cases f1 <;> cases f2 <;> cases hr : p.requireGenesisHash <;> simp_all
  have h1 := key a ha
  have h2 := key b hb
  rw [h1] at h2
  simpa using h2

/-- C81 is violated under protocols that store transactions unchanged: the two flags are ignored, so every transaction
has four stored forms. -/
theorem C81_flags_ignored {AD : Type} (tbl : Protocols) (h : BlockHeader) (p : Params)
    (hp : lookup tbl h.upgradeState.current = some p) (hs : p.supportSignedTxInBlock = false) (d : Stad AD) (f g : Bool) :
    decodeSignedTx tbl h ⟨d, f, g⟩ = .ok d := by
  rw [decodeSignedTx, hp]
  simp [hs]

/-! ## C39: groups -/

/-- Specification of a grouping: all transactions in order, no empty group, members of a group share a non-zero id, and
neighbouring groups could not be merged. -/
structure IsGrouping {α : Type} (key : α → Bytes) (l : List α) (gs : List (List α)) : Prop where
  all : gs.flatten = l
  nonempty : ∀ g ∈ gs, g ≠ []
  same : ∀ g ∈ gs, ∀ i : Nat, ∀ x y, g[i]? = some x → g[i + 1]? = some y → key x = key y ∧ key x ≠ List.replicate 32 0
  apart : ∀ i : Nat, ∀ g g' x y, gs[i]? = some g → gs[i + 1]? = some g' → g.getLast? = some x → g'.head? = some y →
    ¬ (key x = key y ∧ key x ≠ List.replicate 32 0)

theorem groupLoop_spec {α : Type} (key : α → Bytes) : ∀ (l last : List α),
    (∀ i : Nat, ∀ x y, last[i]? = some x → last[i + 1]? = some y → key x = key y ∧ key x ≠ List.replicate 32 0) →
    IsGrouping key (last ++ l) (groupLoop key l last) ∧
    (last ≠ [] → ∃ g rest, groupLoop key l last = (last ++ g) :: rest)
  | [], last, h => by
    rw [groupLoop]
    cases last with
    | nil => exact ⟨⟨by simp, by simp, by simp, by simp⟩, by simp⟩
    | cons a as =>
      simp only [List.isEmpty_cons, Bool.false_eq_true, if_false]
      refine ⟨⟨by simp, by simp, ?_, ?_⟩, fun _ => ⟨[], [], by simp⟩⟩
      · intro g hg i x y
        rw [List.mem_singleton.1 hg]
        exact h i x y
      · intro i g g' x y _ h2
        simp at h2
  | t :: rest, last, h => by
    cases last with
    | nil =>
      rw [groupLoop]
      obtain ⟨h1, h2⟩ := groupLoop_spec key rest [t] (by intro i x y _ h; simp at h)
      exact ⟨by simpa using h1, by simp⟩
    | cons a as =>
      rw [groupLoop]
      have hall : ∀ x ∈ a :: as, key x = key a := by
        have hi : ∀ i : Nat, ∀ x, (a :: as)[i]? = some x → key x = key a := by
          intro i
          induction i with
          | zero => intro x hx; simp at hx; rw [hx]
          | succ i ih =>
            intro x hx
            obtain ⟨z, hz⟩ : ∃ z, (a :: as)[i]? = some z := by
              have := (List.getElem?_eq_some_iff.1 hx).1
              exact ⟨_, List.getElem?_eq_getElem (by omega)⟩
            rw [← (h i z x hz hx).1]
            exact ih z hz
        intro x hx
        obtain ⟨i, hi'⟩ := List.mem_iff_getElem?.1 hx
        exact hi i x hi'
      split
      · rename_i hc
        obtain ⟨h1, h2⟩ := groupLoop_spec key rest [t] (by intro i x y _ h; simp at h)
        obtain ⟨g, gs, hg⟩ := h2 (by simp)
        refine ⟨⟨?_, ?_, ?_, ?_⟩, fun _ => ⟨[], groupLoop key rest [t], by simp⟩⟩
        · rw [List.flatten_cons, h1.all]; simp
        · intro g' hg'
          rcases List.mem_cons.1 hg' with rfl | hg'
          · simp
          · exact h1.nonempty g' hg'
        · intro g' hg' i x y
          rcases List.mem_cons.1 hg' with rfl | hg'
          · exact h i x y
          · exact h1.same g' hg' i x y
        · intro i g1 g2 x y e1 e2 e3 e4
          cases i with
          | zero =>
            simp only [List.getElem?_cons_zero, Option.some.injEq] at e1
            subst e1
            rw [List.getElem?_cons_succ, hg] at e2
            simp only [List.getElem?_cons_zero, Option.some.injEq] at e2
            subst e2
            simp only [List.singleton_append, List.head?_cons, Option.some.injEq] at e4
            subst e4
            have hx := hall x (List.mem_of_getLast? e3)
            rw [hx]
            rintro ⟨c1, c2⟩
            rcases hc with hc | hc
            · exact hc c1
            · exact c2 hc
          | succ i => exact h1.apart i g1 g2 x y e1 e2 e3 e4
      · rename_i hc
        have hc1 : key a = key t := by
          by_contra hcon; exact hc (Or.inl hcon)
        have hc2 : key a ≠ List.replicate 32 0 := fun e => hc (Or.inr e)
        obtain ⟨h1, h2⟩ := groupLoop_spec key rest ((a :: as) ++ [t]) (by
          intro i x y hx hy
          by_cases hlt : i + 1 < (a :: as).length
          · rw [List.getElem?_append_left (by omega)] at hx
            rw [List.getElem?_append_left hlt] at hy
            exact h i x y hx hy
          · have hl := (List.getElem?_eq_some_iff.1 hy).1
            rw [List.length_append, List.length_singleton] at hl
            rw [List.getElem?_append_left (by omega)] at hx
            have hi : i + 1 = (a :: as).length := by omega
            rw [List.getElem?_append_right (by omega), hi, Nat.sub_self] at hy
            simp only [List.getElem?_cons_zero, Option.some.injEq] at hy
            subst hy
            have := hall x (List.mem_of_getElem? hx)
            rw [this]
            exact ⟨hc1, hc2⟩)
        refine ⟨by simpa using h1, fun _ => ?_⟩
        obtain ⟨g, gs, hg⟩ := h2 (by simp)
        exact ⟨t :: g, gs, by rw [hg]; simp⟩

/-- C39: the groups of a list of signed transactions are a grouping of it. -/
theorem C39_signed_txs_to_group (txs : List SignedTx) :
    IsGrouping (fun t => t.tx.header.group) txs (signedTxsToGroup txs) := by
  have := (groupLoop_spec (fun t : SignedTx => t.tx.header.group) txs [] (by simp)).1
  simpa [signedTxsToGroup] using this

/-- C39: the groups of a block are a grouping of its decoded transactions. -/
theorem C39_decode_payset_groups {AD : Type} (tbl : Protocols) (b : Block.Block AD) (gs : List (List (Stad AD)))
    (h : decodePaysetGroups tbl b = .ok gs) :
    ∃ flat, decodePaysetFlat tbl b.header b.payset = .ok flat ∧
      IsGrouping (fun t => t.tx.tx.header.group) flat gs := by
  rw [decodePaysetGroups] at h
  obtain ⟨flat, h1, h⟩ := Res.bind_eq_ok.1 h
  simp only [Res.ok.injEq] at h
  subst h
  refine ⟨flat, h1, ?_⟩
  have := (groupLoop_spec (fun t : Stad AD => t.tx.tx.header.group) flat [] (by simp)).1
  simpa using this

/-- C39: a list has only one grouping. -/
theorem C39_unique {α : Type} (key : α → Bytes) (l : List α) (gs gs' : List (List α)) (h : IsGrouping key l gs)
    (h' : IsGrouping key l gs') : gs = gs' := by
  induction gs generalizing l gs' with
  | nil =>
    have hl : l = [] := by rw [← h.all]; rfl
    cases gs' with
    | nil => rfl
    | cons g' _ =>
      have := h'.all
      rw [hl, List.flatten_cons, List.append_eq_nil_iff] at this
      exact absurd this.1 (h'.nonempty g' (by simp))
  | cons g gs ih =>
    cases gs' with
    | nil =>
      have := h.all
      rw [← h'.all, List.flatten_cons, List.flatten_nil, List.append_eq_nil_iff] at this
      exact absurd this.1 (h.nonempty g (by simp))
    | cons g' gs' =>
      have tail : ∀ (l : List α) (g : List α) (gs : List (List α)), IsGrouping key l (g :: gs) →
          IsGrouping key gs.flatten gs := by
        intro l g gs h
        exact ⟨rfl, fun x hx => h.nonempty x (List.mem_cons_of_mem _ hx),
          fun x hx => h.same x (List.mem_cons_of_mem _ hx), fun i => h.apart (i + 1)⟩
      -- neither first group can be longer than the other
      have nolonger : ∀ (l g g' : List α) (gs gs' : List (List α)), IsGrouping key l (g :: gs) →
          IsGrouping key l (g' :: gs') → ¬ g.length < g'.length := by
        intro l g g' gs gs' h h' hlt
        have e : g ++ gs.flatten = g' ++ gs'.flatten := by
          rw [← List.flatten_cons, ← List.flatten_cons, h.all, h'.all]
        have hgs : gs ≠ [] := by
          rintro rfl
          have := congrArg List.length e
          simp only [List.flatten_nil, List.append_nil, List.length_append] at this
          omega
        obtain ⟨g2, rest, rfl⟩ := List.exists_cons_of_ne_nil hgs
        have hg2 := h.nonempty g2 (by simp)
        obtain ⟨y, ys, rfl⟩ := List.exists_cons_of_ne_nil hg2
        have hg := h.nonempty g (by simp)
        have hpos : 0 < g.length := List.length_pos_iff.2 hg
        have hx : g[g.length - 1]? = some g[g.length - 1] := List.getElem?_eq_getElem (by omega)
        have hx' : g'[g.length - 1]? = some g[g.length - 1] := by
          rw [← List.getElem?_append_left (l₂ := gs'.flatten) (by omega), ← e,
            List.getElem?_append_left (by omega), hx]
        have hy' : g'[g.length - 1 + 1]? = some y := by
          rw [← List.getElem?_append_left (l₂ := gs'.flatten) (by omega), ← e,
            List.getElem?_append_right (by omega)]
          have : g.length - 1 + 1 - g.length = 0 := by omega
          rw [this]
          simp
        have hs := h'.same g' (by simp) _ _ _ hx' hy'
        refine h.apart 0 g (y :: ys) _ y rfl rfl ?_ rfl hs
        rw [List.getLast?_eq_getElem?]
        exact hx
      have hlen : g.length = g'.length := by
        have a := nolonger l g g' gs gs' h h'
        have b := nolonger l g' g gs' gs h' h
        omega
      have e : g ++ gs.flatten = g' ++ gs'.flatten := by
        rw [← List.flatten_cons, ← List.flatten_cons, h.all, h'.all]
      obtain ⟨rfl, e2⟩ := List.append_inj e hlen
      rw [ih gs.flatten gs' (tail l g gs h) (by rw [e2]; exact tail l g gs' h')]

/-- C39: flattening undoes grouping, and grouping undoes flattening of a grouping. -/
theorem C39_inverse (txs : List SignedTx) (gs : List (List SignedTx))
    (h : IsGrouping (fun t => t.tx.header.group) gs.flatten gs) :
    signedTxGroupsFlatten (signedTxsToGroup txs) = txs ∧ signedTxsToGroup (signedTxGroupsFlatten gs) = gs :=
  ⟨(C39_signed_txs_to_group txs).all, C39_unique _ _ _ _ (C39_signed_txs_to_group _) h⟩

example : groupLoop (fun n : Nat => if n < 10 then List.replicate 32 0 else [UInt8.ofNat (n / 10)])
    [1, 11, 12, 21, 2, 3] [] = [[1], [11, 12], [21], [2], [3]] := by decide

/-! ## C76: checking a header leaves the parent alone -/

/-- C76 is violated: whenever the checks accept a header, the parent's upgrade state has been replaced by the child's. -/
theorem C76_parent_overwritten {AD : Type} (env : Env AD) (tbl : Protocols) (self prev : BlockHeader)
    (h : (preCheck env tbl self prev).1 = .ok ()) :
    (preCheck env tbl self prev).2 = ⟨prev.body, self.upgradeState⟩ := by
  rw [preCheck] at h ⊢
  cases hl : lookup tbl self.upgradeState.current with
  | none => rw [hl] at h; simp at h
  | some params =>
    rw [hl] at h
    simp only at h ⊢
    split at h
    · split at h
      · simp at h
      · split at h
        · simp at h
        · split at h
          · simp at h
          · simp at h
          · rename_i h1 h2 _ s hs
            simp only at h ⊢
            by_cases hne : s ≠ self.upgradeState
            · rw [if_pos hne] at h; simp at h
            · rw [Classical.not_not.1 hne, if_neg h1, if_neg h2]
    · simp at h

/-- A parent in round 10 with protocol 29 and a proposal of protocol 30 pending until round 100. -/
def toyParent : BlockHeader :=
  ⟨⟨10, Block.zeroHash, Block.zeroHash, Block.zeroHash, 1000, [103], List.replicate 32 1, RewardsState.default,
    UpgradeVote.default, 0, none⟩, ⟨.v29, some .v30, 4, 100, 200⟩⟩

/-- Its child that approves the proposal. -/
def toyChild {AD : Type} (env : Env AD) : BlockHeader :=
  ⟨⟨11, headerHash env toyParent, Block.zeroHash, Block.zeroHash, 1010, [103], List.replicate 32 1, RewardsState.default,
    ⟨.v29, 0, true⟩, 0, none⟩, ⟨.v29, some .v30, 5, 100, 200⟩⟩

/-- C76 is violated observably: a valid header that approves a pending upgrade is accepted once and rejected when checked
again against the same parent; for every hash and encoding. -/
theorem C76_not_repeatable {AD : Type} (env : Env AD) :
    (preCheck env builtin (toyChild env) toyParent).1 = .ok () ∧
    (preCheck env builtin (toyChild env) (preCheck env builtin (toyChild env) toyParent).2).1 = .err .wrongUpgradeState := by
  have h29 : ∃ p, lookup builtin .v29 = some p ∧ p.maxTimestampIncrement = 25 ∧ p.supportGenesisHash = true := by
    cases hl : lookup builtin .v29 with
    | none =>
      have : (lookup builtin .v29).map (·.maxTimestampIncrement) = some 25 := by decide +kernel
      rw [hl] at this; simp at this
    | some p =>
      refine ⟨p, rfl, ?_, ?_⟩
      · have : (lookup builtin .v29).map (·.maxTimestampIncrement) = some 25 := by decide +kernel
        rw [hl] at this; simpa using this
      · have : (lookup builtin .v29).map (·.supportGenesisHash) = some true := by decide +kernel
        rw [hl] at this; simpa using this
  obtain ⟨p, hp, h25, hgh⟩ := h29
  have hv1 : applyUpgradeVote builtin ⟨.v29, some .v30, 4, 100, 200⟩ 11 ⟨.v29, 0, true⟩ = .ok ⟨.v29, some .v30, 5, 100, 200⟩ := by
    decide +kernel
  have hv2 : applyUpgradeVote builtin ⟨.v29, some .v30, 5, 100, 200⟩ 11 ⟨.v29, 0, true⟩ = .ok ⟨.v29, some .v30, 6, 100, 200⟩ := by
    decide +kernel
  have hadd : (addU64 10 1 : Res Unit Nat) = .ok 11 := by decide
  have first : (preCheck env builtin (toyChild env) toyParent).1 = .ok () := by
    rw [preCheck, show (toyChild env).upgradeState.current = .v29 from rfl, hp]
    simp only
    rw [show toyParent.body.round = 10 from rfl, hadd]
    simp only
    rw [if_neg (by simp [toyChild]), if_neg (by simp [toyChild]),
      show toyParent.upgradeState = ⟨.v29, some .v30, 4, 100, 200⟩ from rfl,
      show (toyChild env).body.upgradeVote = ⟨.v29, 0, true⟩ from rfl, hv1]
    simp only
    rw [if_neg (by simp [toyChild])]
    have ht : checkTimestamp p (toyChild env).body toyParent.body = .ok () := by
      rw [checkTimestamp, h25]
      simp [toyChild, toyParent, addU64, u64Lim]
    have hg : checkGenesis p (toyChild env).body toyParent.body = .ok () := by
      rw [checkGenesis, hgh]
      have : (List.replicate 32 (1 : UInt8)) ≠ Block.zeroHash := by decide
      rw [if_neg (by simp [toyChild]), if_neg (by simp [toyChild, toyParent]), if_pos rfl,
        if_neg (show ¬ (toyChild env).body.genesisHash = Block.zeroHash from this),
        if_neg (by simp [toyChild, toyParent])]
    rw [ht, Res.ok_bind, hg]
  refine ⟨first, ?_⟩
  rw [C76_parent_overwritten env builtin _ _ first, preCheck, show (toyChild env).upgradeState.current = .v29 from rfl, hp]
  simp only
  rw [show toyParent.body.round = 10 from rfl, hadd]
  simp only
  have hh : headerHash env ⟨toyParent.body, (toyChild env).upgradeState⟩ = headerHash env toyParent := rfl
  rw [hh, if_neg (by simp [toyChild]), if_neg (by simp [toyChild]),
    show (toyChild env).upgradeState = ⟨.v29, some .v30, 5, 100, 200⟩ from rfl,
    show (toyChild env).body.upgradeVote = ⟨.v29, 0, true⟩ from rfl, hv2]
  simp only
  rw [if_pos (by decide)]

/-- C76, what does hold: only the upgrade state of the parent changes; and a check that leaves the upgrade state as it
was gives the same verdict when repeated. -/
theorem C76_rest_kept_partial {AD : Type} (env : Env AD) (tbl : Protocols) (self prev : BlockHeader) :
    (preCheck env tbl self prev).2.body = prev.body ∧
    ((preCheck env tbl self prev).2.upgradeState = prev.upgradeState →
      preCheck env tbl self (preCheck env tbl self prev).2 = preCheck env tbl self prev) := by
  have hbody : (preCheck env tbl self prev).2.body = prev.body := by
    rw [preCheck]
    split
    · rfl
    · split
      · split
        · rfl
        · split
          · rfl
          · split <;> rfl
      · rfl
  refine ⟨hbody, fun hs => ?_⟩
  have : (preCheck env tbl self prev).2 = prev := by
    generalize (preCheck env tbl self prev).2 = q at *
    cases q; cases prev
    simp only at hbody hs
    rw [hbody, hs]
  rw [this]

/-! ## C77: checking the contents of an untrusted block -/

/-- C77 is violated: under a Merkle commitment the check crashes on every block with an undecodable entry, instead of
answering no. -/
theorem C77_crashes {AD : Type} (env : Env AD) (tbl : Protocols) (b : Block.Block AD) (p : Params)
    (hp : lookup tbl b.header.upgradeState.current = some p) (hm : p.paysetCommit = .merkle) (t : Stib AD)
    (ht : t ∈ b.payset) (hbad : ∀ d, decodeSignedTx tbl b.header t ≠ .ok d) :
    contentsMatchHeader env tbl b = .panic := by
  have hleaves : ∀ l : List (Stib AD), t ∈ l → merkleLeaves env tbl b.header l = .panic := by
    intro l hl
    induction l with
    | nil => simp at hl
    | cons x l ih =>
      rw [merkleLeaves]
      cases hd : decodeSignedTx tbl b.header x with
      | ok a =>
        simp only [Res.ok_bind]
        rcases List.mem_cons.1 hl with rfl | hl
        · exact absurd hd (hbad a)
        · rw [ih hl]; rfl
      | err e => rfl
      | panic => rfl
  rw [contentsMatchHeader, paysetCommit, hp, Res.ofOption_some, Res.ok_bind, hm]
  simp only
  rw [hleaves _ ht]
  rfl

/-- The leaves committed to by a Merkle payset commitment: transaction id and hash of the stored form. -/
def specLeaves {AD : Type} (env : Env AD) (ds : List (Stad AD)) (stibs : List (Stib AD)) : List ToBeHashed :=
  List.zipWith (fun d s => ⟨.txMerkleLeaf,
    env.hash (HashId.transaction.bytes ++ env.encTx d.tx.tx) ++ env.hash (HashId.signedTxInBlock.bytes ++ env.encStib s)⟩)
    ds stibs

/-- C77, what does hold: when all entries decode, the check answers, and the answer is whether the header carries the
commitment of the protocol: the hash of the payset, or the Merkle root over transaction ids and stored forms. -/
theorem C77_answers_partial {AD : Type} (env : Env AD) (tbl : Protocols) (b : Block.Block AD) (p : Params)
    (hp : lookup tbl b.header.upgradeState.current = some p) (ds : List (Stad AD))
    (hd : decodePaysetFlat tbl b.header b.payset = .ok ds) :
    (p.paysetCommit = .flat → contentsMatchHeader env tbl b =
      .ok (decide (b.header.body.txRoot = env.hash (HashId.paysetFlat.bytes ++ env.encPayset b.payset)))) ∧
    (p.paysetCommit = .merkle → ∃ r, MerkleArray.root (MerkleArray.fromArray env.hash (specLeaves env ds b.payset)) = .ok r ∧
      contentsMatchHeader env tbl b = .ok (decide (b.header.body.txRoot = r))) := by
  have hbeq : ∀ x y : Bytes, (x == y) = decide (y = x) := by
    intro x y
    by_cases h : y = x
    · simp [h]
    · have : x ≠ y := fun e => h e.symm
      simp [h, this]
  constructor
  · intro hc
    rw [contentsMatchHeader, paysetCommit, hp, Res.ofOption_some, Res.ok_bind, hc]
    simp only
    rw [hbeq]
    rfl
  · intro hc
    have hl : ∀ (l : List (Stib AD)) (ds : List (Stad AD)), decodePaysetFlat tbl b.header l = .ok ds →
        merkleLeaves env tbl b.header l = .ok (specLeaves env ds l) := by
      intro l
      induction l with
      | nil =>
        intro ds h
        simp only [decodePaysetFlat, Res.ok.injEq] at h
        subst h
        rfl
      | cons x l ih =>
        intro ds h
        rw [decodePaysetFlat] at h
        obtain ⟨a, h1, h⟩ := Res.bind_eq_ok.1 h
        obtain ⟨as, h2, h⟩ := Res.bind_eq_ok.1 h
        simp only [Res.ok.injEq] at h
        subst h
        rw [merkleLeaves, h1]
        simp only [Res.ok_bind]
        rw [ih as h2]
        rfl
    have hroot : ∃ r, MerkleArray.root (MerkleArray.fromArray env.hash (specLeaves env ds b.payset)) = .ok r := by
      by_cases hn : specLeaves env ds b.payset = []
      · exact ⟨_, (C07_root_spec env.hash _).1 hn⟩
      · obtain ⟨_, _, _, h⟩ := (C07_root_spec env.hash _).2 hn
        exact ⟨_, h⟩
    obtain ⟨r, hr⟩ := hroot
    refine ⟨r, hr, ?_⟩
    rw [contentsMatchHeader, paysetCommit, hp, Res.ofOption_some, Res.ok_bind, hc]
    simp only
    rw [hl _ _ hd, Res.ok_bind, hr]
    simp only
    rw [hbeq]

/-- A stored payment on the network of `toyParent`. -/
def toyStored (id gh : Bytes) (f g : Bool) : Stib Unit :=
  ⟨⟨⟨List.replicate 64 7, none, none, { toyPay 1001 with header := { (toyPay 1001).header with genesisId := id, genesisHash := gh } },
    List.replicate 32 0⟩, ()⟩, f, g⟩

example : encodeSignedTx builtin toyParent (toyStored [103] (List.replicate 32 1) false false).tx.tx () =
    .ok (toyStored [] (List.replicate 32 0) true false) := by decide +kernel

example : decodeSignedTx builtin toyParent (toyStored [103] (List.replicate 32 0) true false) = .err .nonEmptyGenesisId := by
  decide +kernel

example : ∃ ds, decodePaysetFlat builtin toyParent [toyStored [] (List.replicate 32 0) true false] = .ok ds :=
  ⟨[⟨(toyStored [103] (List.replicate 32 1) false false).tx.tx, ()⟩], by decide +kernel⟩

example : GenesisFits v30Base toyParent.body := by
  refine ⟨by decide, fun _ => by decide, fun _ => rfl⟩

/-! ## C80: the genesis id -/

/-- C80: on networks whose names contain no dash, the genesis id determines the network and the schema. -/
theorem C80_genesis_id_partial (n n' s s' : List Char) (hn : '-' ∉ n) (hn' : '-' ∉ n') (h : genesisId n s = genesisId n' s') :
    n = n' ∧ s = s' := by
  rw [genesisId, genesisId] at h
  induction n generalizing n' with
  | nil =>
    cases n' with
    | nil => simpa using h
    | cons c cs =>
      simp only [List.nil_append, List.cons_append, List.cons.injEq] at h
      exact absurd (by rw [← h.1]; simp) hn'
  | cons c cs ih =>
    cases n' with
    | nil =>
      simp only [List.nil_append, List.cons_append, List.cons.injEq] at h
      exact absurd (by rw [h.1]; simp) hn
    | cons c' cs' =>
      simp only [List.cons_append, List.cons.injEq] at h
      obtain ⟨rfl, h⟩ := h
      obtain ⟨rfl, rfl⟩ := ih cs' (fun hx => hn (List.mem_cons_of_mem _ hx)) (fun hx => hn' (List.mem_cons_of_mem _ hx)) h
      exact ⟨rfl, rfl⟩

/-- C80 is violated for names with a dash: two different networks with the same genesis id. -/
theorem C80_dash_collides : genesisId ['a', '-', 'b'] ['v', '1'] = genesisId ['a'] ['b', '-', 'v', '1'] := by decide

example : '-' ∉ ['m', 'a', 'i', 'n', 'n', 'e', 't'] := by decide

/-! ## C82: the block digest -/

/-- C82 is violated: the digest of a block does not depend on its upgrade state, so headers that claim different
protocols have the same digest; for every hash and encoding. -/
theorem C82_upgrade_state_unbound {AD : Type} (env : Env AD) (h : HeaderBody) (s s' : UpgradeState) :
    headerHash env ⟨h, s⟩ = headerHash env ⟨h, s'⟩ := rfl

/-- C82, what does hold: two headers with the same digest agree on everything but the upgrade state, unless two explicit
strings collide. Missing: the upgrade state. -/
theorem C82_digest_binds_body_partial {AD : Type} (env : Env AD) (hinj : ∀ a b, env.encHeader a = env.encHeader b → a = b)
    (a b : BlockHeader) (h : headerHash env a = headerHash env b) :
    a.body = b.body ∨
    (HashId.blockHeader.bytes ++ env.encHeader a.body ≠ HashId.blockHeader.bytes ++ env.encHeader b.body ∧
     env.hash (HashId.blockHeader.bytes ++ env.encHeader a.body) =
      env.hash (HashId.blockHeader.bytes ++ env.encHeader b.body)) := by
  by_cases he : HashId.blockHeader.bytes ++ env.encHeader a.body = HashId.blockHeader.bytes ++ env.encHeader b.body
  · exact Or.inl (hinj _ _ (List.append_cancel_left he))
  · exact Or.inr ⟨he, h⟩

/-! ## Cases -/

/-- A case of `C35_timestamp`: a clock far ahead. -/
example : (75 : Nat) = 50 + 25 := ((C35_timestamp 100 50 25 75 (by decide)).2 (by decide)).2.2.2.2 (by decide)

/-- A case of `C35_new_block` and `C34_new_block_passes_partial`: the block after `toyParent`, moved to protocol 30, at
clock 1010. -/
example {AD : Type} (env : Env AD) : ∃ b prev', newBlock env builtin 1010 ⟨toyParent.body, noProposal .v30⟩ = .ok (b, prev') ∧
    1000 ≤ b.header.body.timestamp ∧ contentsMatchHeader env builtin b = .ok true := by
  obtain ⟨b, h, _⟩ := C34_newest_returns env 1010 ⟨toyParent.body, noProposal .v30⟩ rfl (by decide) (by decide)
  obtain ⟨p, hp, h1, h2⟩ := C35_new_block env builtin 1010 _ _ b h (by decide)
  have hinc : ∀ v, ((lookup builtin v).map (·.maxTimestampIncrement)).getD 0 ≤ 25 := by
    intro v; cases v <;> decide +kernel
  have := hinc b.header.upgradeState.current
  rw [hp] at this
  simp only [Option.map_some, Option.getD_some] at this
  refine ⟨b, _, h, h1, (C34_new_block_passes_partial env builtin 1010 _ _ b h p hp ?_).2⟩
  show 1000 + p.maxTimestampIncrement < u64Lim
  have : u64Lim = 2 ^ 64 := rfl
  omega

/-- A case of `C34_crashes`: the same parent on protocol 29. -/
example {AD : Type} (env : Env AD) : newBlock env builtin 1010 ⟨toyParent.body, noProposal .v29⟩ = .panic := by
  cases hp : lookup builtin .v29 with
  | none => exact absurd (show (lookup builtin .v29).isSome = true by decide +kernel) (by rw [hp]; decide)
  | some p => exact C34_crashes env 1010 _ .v29 p hp rfl (by decide) (by decide)

/-- Cases of `C38_roundtrip`, `C38_encodable_iff`, `C38_stored` and `C38_rest_untouched`: a payment that names the network's id
and hash, stored without them. -/
example : ∃ stb : Stib Unit, encodeSignedTx builtin toyParent (toyStored [103] (List.replicate 32 1) false false).tx.tx () = .ok stb ∧
    decodeSignedTx builtin toyParent stb = .ok ⟨(toyStored [103] (List.replicate 32 1) false false).tx.tx, ()⟩ :=
  have h : encodeSignedTx builtin toyParent (toyStored [103] (List.replicate 32 1) false false).tx.tx () =
    .ok (toyStored [] (List.replicate 32 0) true false) := by decide +kernel
  ⟨_, h, C38_roundtrip builtin toyParent _ () _ h⟩

/-- A case of `C81_unique_form_partial`: the same payment with the flag for the id cleared is a different transaction. -/
example : decodeSignedTx builtin toyParent (toyStored [] (List.replicate 32 0) true false) ≠
    decodeSignedTx builtin toyParent (toyStored [] (List.replicate 32 0) false false) := by
  intro h
  have hd : decodeSignedTx builtin toyParent (toyStored [] (List.replicate 32 0) true false) =
      .ok ⟨(toyStored [103] (List.replicate 32 1) false false).tx.tx, ()⟩ := by decide +kernel
  cases hp : lookup builtin .v29 with
  | none => exact absurd (show (lookup builtin .v29).isSome = true by decide +kernel) (by rw [hp]; decide)
  | some p =>
    have hs : (lookup builtin .v29).map (·.supportSignedTxInBlock) = some true := by decide +kernel
    rw [hp] at hs
    have := C81_unique_form_partial builtin toyParent p hp (by simpa using hs) (by decide) (by decide) _ _ _ hd (h ▸ hd)
    exact absurd this (by simp [toyStored])

/-- A case of `C81_flags_ignored`: parameters without compact storing. -/
example (f g : Bool) : decodeSignedTx [(.v29, { v30Base with supportSignedTxInBlock := false })] toyParent
    ⟨(toyStored [103] (List.replicate 32 1) false false).tx, f, g⟩ =
    .ok (toyStored [103] (List.replicate 32 1) false false).tx :=
  C81_flags_ignored _ toyParent { v30Base with supportSignedTxInBlock := false } rfl rfl _ f g

/-- A case of `C39_decode_payset_groups`: one payment, alone in its group. -/
example : ∃ gs, decodePaysetGroups builtin ⟨toyParent, [toyStored [] (List.replicate 32 0) true false]⟩ = .ok gs ∧
    gs.flatten.length = 1 := by
  have h : decodePaysetGroups builtin ⟨toyParent, [toyStored [] (List.replicate 32 0) true false]⟩ =
    .ok [[⟨(toyStored [103] (List.replicate 32 1) false false).tx.tx, ()⟩]] := by decide +kernel
  exact ⟨_, h, rfl⟩

/-- A case of `C39_unique`: 11 and 12 carry the same group, so they cannot stand alone. -/
example : ¬ IsGrouping (fun n : Nat => if n < 10 then List.replicate 32 0 else [UInt8.ofNat (n / 10)]) [11, 12] [[11], [12]] :=
  fun h => by
    have h' : IsGrouping (fun n : Nat => if n < 10 then List.replicate 32 0 else [UInt8.ofNat (n / 10)]) [11, 12] [[11, 12]] := by
      refine ⟨rfl, by simp, ?_, ?_⟩
      · intro g hg i x y hx hy
        rw [List.mem_singleton.1 hg] at hx hy
        match i with
        | 0 => simp at hx hy; subst hx hy; decide
        | i + 1 => simp at hy
      · intro i g g' x y _ hg'
        simp at hg'
    exact absurd (C39_unique _ _ _ _ h h') (by decide)

/-- A case of `C77_crashes`: under the Merkle commitment, a stored payment that repeats the network's id. -/
example (env : Env Unit) : contentsMatchHeader env [(.v29, { v30Base with paysetCommit := .merkle })]
    ⟨toyParent, [toyStored [103] (List.replicate 32 0) true false]⟩ = .panic := by
  refine C77_crashes env _ _ { v30Base with paysetCommit := .merkle } rfl rfl _ (List.mem_singleton_self _) fun d hd => ?_
  have : decodeSignedTx [(.v29, { v30Base with paysetCommit := .merkle })] toyParent
    (toyStored [103] (List.replicate 32 0) true false) = .err .nonEmptyGenesisId := by decide +kernel
  rw [this] at hd
  cases hd

/-- A case of `C80_genesis_id_partial`. -/
example : genesisId "mainnet".toList "v1-2".toList ≠ genesisId "main".toList "netv1-2".toList := fun h =>
  absurd (C80_genesis_id_partial _ _ _ _ (by decide) (by decide) h).1 (by decide)

/-- A case of `C82_upgrade_state_unbound`. -/
example {AD : Type} (env : Env AD) : headerHash env toyParent = headerHash env { toyParent with upgradeState := noProposal .v30 } :=
  C82_upgrade_state_unbound env _ _ _

end Verif.Props
