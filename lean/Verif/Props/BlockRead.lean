import Verif.Lemmas.BlockRead
import Verif.Props.Header
import Verif.Props.GenesisRead
/-!
# C130-C132: headers and paysets that are written and read
-/

namespace Verif.Props
open Verif Verif.Consensus Verif.Block Verif.Tx Verif.HashId Verif.Codec Verif.Msgpack Verif.Genesis

/-! ## C130: block headers survive being sent -/

/-- A header of its Rust type. -/
structure HeaderExact (h : BlockHeader) : Prop where
  body : HeaderBodyTyped h.body
  text : utf8 h.body.genesisId = true

/-- **C130**: what reading back a header gives, exactly: every field but the upgrade state, which becomes the default of
the program that reads; or nothing, if the library does not hand out byte strings as arrays. Missing: the upgrade state. -/
theorem C130_read_back_partial (L : Lib) (h : BlockHeader) (ht : HeaderExact h) (rest : Bytes) :
    decodeHeader L (encodeHeader h ++ rest) =
      if L.binAsSeq = true then some ⟨h.body, ⟨.v30, none, 0, 0, 0⟩⟩ else none := by
  rw [decodeHeader, encodeHeader, decode_enc _ _ (fits_header ht.body)]
  exact decBlockHeader_mp ht.body ht.text

/-- C130 is violated: no header whose upgrade state is not the default one is read back as it was, in particular none of
another protocol version and none during an upgrade. -/
theorem C130_violated (L : Lib) (h : BlockHeader) (ht : HeaderExact h) (rest : Bytes)
    (hu : h.upgradeState ≠ ⟨.v30, none, 0, 0, 0⟩) : decodeHeader L (encodeHeader h ++ rest) ≠ some h := by
  rw [C130_read_back_partial L h ht rest]
  split
  · intro e
    injection e with e
    exact hu (congrArg BlockHeader.upgradeState e).symm
  · simp

/-- C130 is violated where it matters: a header that its parent accepts is refused by the same parent after it was sent,
unless its upgrade state is the default one. -/
theorem C130_violated_check {AD : Type} (env : Env AD) (tbl : Protocols) (L : Lib) (h prev prev' got : BlockHeader)
    (ht : HeaderExact h) (rest : Bytes) (hu : h.upgradeState ≠ ⟨.v30, none, 0, 0, 0⟩) (hv : lookup tbl .v30 ≠ none)
    (hok : preCheck env tbl h prev = (.ok (), prev')) (hgot : decodeHeader L (encodeHeader h ++ rest) = some got) :
    preCheck env tbl got prev = (.err .wrongUpgradeState, prev') := by
  rw [C130_read_back_partial L h ht rest] at hgot
  split at hgot
  case isFalse => cases hgot
  injection hgot with e
  subst e
  obtain ⟨p30, hp⟩ := Option.ne_none_iff_exists'.1 hv
  rw [preCheck] at hok ⊢
  simp only [hp]
  split at hok
  · cases hok
  rename_i params hpar
  split at hok
  · rename_i round hround
    split at hok
    · cases hok
    rename_i hr
    split at hok
    · cases hok
    rename_i hb
    simp only [hr, hb, if_false]
    split at hok
    · cases hok
    · cases hok
    · rename_i s hs
      injection hok with h1 h2
      by_cases hse : s = h.upgradeState
      · subst hse
        simp only [ne_eq, hu, not_false_eq_true, if_true, h2]
      · rw [if_pos hse] at h1
        cases h1
  · cases hok

/-- C130, what does hold: the digest of the header that is read is the digest of the header that was sent, for every hash
function, so that references to it stay valid. -/
theorem C130_digest_partial {AD : Type} (A : AdCodec AD) (hash : Bytes → Bytes) (L : Lib) (h got : BlockHeader)
    (ht : HeaderExact h) (rest : Bytes) (hgot : decodeHeader L (encodeHeader h ++ rest) = some got) :
    headerHash (blockEnv hash A) got = headerHash (blockEnv hash A) h := by
  rw [C130_read_back_partial L h ht rest] at hgot
  split at hgot
  · injection hgot with e
    subst e
    rfl
  · cases hgot

/-- A header. -/
def sentBody : HeaderBody :=
  ⟨1, List.replicate 32 1, List.replicate 32 2, List.replicate 32 3, 5, [109, 97, 105, 110], List.replicate 32 4,
    ⟨List.replicate 32 5, List.replicate 32 6, 7, 8, 9, 10⟩, ⟨.v29, 11, true⟩, 12, some ⟨List.replicate 32 13, 14, 15⟩⟩

theorem sentBody_typed : HeaderBodyTyped sentBody :=
  ⟨by decide, by decide, by decide, by decide, by decide, by decide, by decide, by decide, by decide, by decide, by decide,
    by decide, by decide, by decide, by decide, fun c hc => by
      simp only [sentBody, Option.some.injEq] at hc
      subst hc
      decide⟩

theorem sentBody_exact (s : UpgradeState) : HeaderExact ⟨sentBody, s⟩ := ⟨sentBody_typed, show utf8 sentBody.genesisId = true by decide⟩

/-- The hypotheses hold for a child that votes for an upgrade, for every hash function. -/
example {AD : Type} (A : AdCodec AD) (hash : Bytes → Bytes) (hlen : ∀ m, (hash m).length = 32) :
    ∃ got prev', decodeHeader (anyKey true) (encodeHeader (toyChild (blockEnv hash A)) ++ []) = some got ∧
      preCheck (blockEnv hash A) builtin (toyChild (blockEnv hash A)) toyParent = (.ok (), prev') ∧
      preCheck (blockEnv hash A) builtin got toyParent = (.err .wrongUpgradeState, prev') := by
  have ht : HeaderExact (toyChild (blockEnv hash A)) := by
    refine ⟨⟨show 11 < u64Lim by decide, hlen _, ?_, ?_, show 1010 < u64Lim by decide, ?_, ?_, ?_, ?_, ?_, ?_, ?_, ?_, ?_, ?_, ?_⟩,
      show utf8 [103] = true by decide⟩ <;> simp [toyChild, Block.zeroHash, RewardsState.default, u32Lim, u64Lim, zero32]
  have hg := C130_read_back_partial (anyKey true) _ ht []
  rw [if_pos (show (anyKey true).binAsSeq = true from rfl)] at hg
  have hok := (C76_not_repeatable (blockEnv hash A)).1
  refine ⟨_, _, hg, Prod.ext hok rfl, C130_violated_check _ builtin (anyKey true) _ _ _ _ ht [] ?_ ?_ (Prod.ext hok rfl) hg⟩
  · simp [toyChild]
  · have : (lookup builtin .v30).isSome = true := by decide +kernel
    intro e
    rw [e] at this
    cases this

example : decodeHeader (anyKey true) (encodeHeader ⟨sentBody, ⟨.v29, some .v30, 3, 100, 200⟩⟩) =
    some ⟨sentBody, ⟨.v30, none, 0, 0, 0⟩⟩ := by
  have := C130_read_back_partial (anyKey true) ⟨sentBody, ⟨.v29, some .v30, 3, 100, 200⟩⟩ (sentBody_exact _) []
  rw [List.append_nil] at this
  rw [this]
  rfl

/-! ## C131: exactly the well-formed headers are read -/

/-- The rewards state. -/
def IsRewards (L : Lib) (r : RewardsState) (v : MP) : Prop :=
  IsStruct [
    (['f', 'e', 'e', '_', 's', 'i', 'n', 'k'], IsAuth L r.feeSink),
    (['r', 'e', 'w', 'a', 'r', 'd', 's', '_', 'p', 'o', 'o', 'l'], IsAuth L r.rewardsPool),
    (['r', 'e', 'w', 'a', 'r', 'd', 's', '_', 'l', 'e', 'v', 'e', 'l'], IsUint (2 ^ 64) r.level),
    (['r', 'e', 'w', 'a', 'r', 'd', 's', '_', 'r', 'a', 't', 'e'], IsUint (2 ^ 64) r.rate),
    (['r', 'e', 'w', 'a', 'r', 'd', 's', '_', 'r', 'e', 's', 'i', 'd', 'u', 'e'], IsUint (2 ^ 64) r.residue),
    (['r', 'e', 'w', 'a', 'r', 'd', 's', '_', 'r', 'e', 'c', 'a', 'l', 'c', 'u', 'l', 'a', 't', 'i', 'o', 'n', '_', 'r', 'o', 'u', 'n', 'd'], IsUint (2 ^ 64) r.recalculationRound)] v

/-- The upgrade vote. -/
def IsVote (u : UpgradeVote) (v : MP) : Prop :=
  IsStruct [
    (['u', 'p', 'g', 'r', 'a', 'd', 'e', '_', 'p', 'r', 'o', 'p', 'o', 's', 'e'], IsOneOf versionTable u.propose),
    (['u', 'p', 'g', 'r', 'a', 'd', 'e', '_', 'd', 'e', 'l', 'a', 'y'], IsUint (2 ^ 64) u.delay),
    (['u', 'p', 'g', 'r', 'a', 'd', 'e', '_', 'a', 'p', 'p', 'r', 'o', 'v', 'e'], IsBool u.approve)] v

/-- The state of compact certificates. -/
def IsCertState (c : CertState) (v : MP) : Prop :=
  IsStruct [
    (['c', 'o', 'm', 'p', 'a', 'c', 't', 'c', 'e', 'r', 't', '_', 'v', 'o', 't', 'e', 'r', 's'], IsArray 32 c.voters),
    (['c', 'o', 'm', 'p', 'a', 'c', 't', 'c', 'e', 'r', 't', '_', 'v', 'o', 't', 'e', 'r', 's', '_', 't', 'o', 't', 'a', 'l'], IsUint (2 ^ 64) c.votersTotal),
    (['c', 'o', 'm', 'p', 'a', 'c', 't', 'c', 'e', 'r', 't', '_', 'n', 'e', 'x', 't', '_', 'r', 'o', 'u', 'n', 'd'], IsUint (2 ^ 64) c.nextRound)] v

/-- The only type of compact certificates. -/
def IsCertKind (_ : Unit) (v : MP) : Prop := IsOneOf [((), ['B', 'a', 's', 'i', 'c'])] () v

/-- The states by type. -/
def IsCerts (o : Option CertState) (v : MP) : Prop := IsMap IsCertKind IsCertState (o.toList.map fun c => ((), c)) v

/-- A header. -/
def IsBlockHeader (L : Lib) (h : HeaderBody) (v : MP) : Prop :=
  IsStruct [
    (['r', 'o', 'u', 'n', 'd'], IsUint (2 ^ 64) h.round),
    (['b', 'r', 'a', 'n', 'c', 'h'], IsArray 32 h.branch),
    (['s', 'e', 'e', 'd'], IsArray 32 h.seed),
    (['t', 'x', '_', 'r', 'o', 'o', 't'], IsArray 32 h.txRoot),
    (['t', 'i', 'm', 'e', 's', 't', 'a', 'm', 'p'], IsUint (2 ^ 64) h.timestamp),
    (['g', 'e', 'n', 'e', 's', 'i', 's', '_', 'i', 'd'], IsString h.genesisId),
    (['g', 'e', 'n', 'e', 's', 'i', 's', '_', 'h', 'a', 's', 'h'], IsArray 32 h.genesisHash),
    (['r', 'e', 'w', 'a', 'r', 'd', 's', '_', 's', 't', 'a', 't', 'e'], IsRewards L h.rewards),
    (['u', 'p', 'g', 'r', 'a', 'd', 'e', '_', 'v', 'o', 't', 'e'], IsVote h.upgradeVote),
    (['t', 'x', '_', 'c', 'o', 'u', 'n', 't', 'e', 'r'], IsUint (2 ^ 64) h.txCounter),
    (['c', 'o', 'm', 'p', 'a', 'c', 't', '_', 'c', 'e', 'r', 't', 's'], IsCerts h.compactCerts)] v

theorem decRewards_iff (L : Lib) (v : MP) (x : RewardsState) : decRewards L v = some x ↔ IsRewards L x v := by
  obtain ⟨x1, x2, x3, x4, x5, x6⟩ := x
  rw [IsRewards, isStruct_iff, decRewards]
  constructor
  · intro h
    obtain ⟨l, hl, h⟩ := Option.bind_eq_some_iff.1 h
    split at h
    · obtain ⟨_, a1, h⟩ := Option.bind_eq_some_iff.1 h
      obtain ⟨_, a2, h⟩ := Option.bind_eq_some_iff.1 h
      obtain ⟨_, a3, h⟩ := Option.bind_eq_some_iff.1 h
      obtain ⟨_, a4, h⟩ := Option.bind_eq_some_iff.1 h
      obtain ⟨_, a5, h⟩ := Option.bind_eq_some_iff.1 h
      obtain ⟨_, a6, h⟩ := Option.bind_eq_some_iff.1 h
      injection h with e
      injection e with f1 f2 f3 f4 f5 f6
      subst f1 f2 f3 f4 f5 f6
      refine ⟨_, hl, ?_⟩
      refine .cons ((decAddrDirect_iff _ _ _).1 a1) ?_
      refine .cons ((decAddrDirect_iff _ _ _).1 a2) ?_
      refine .cons ((decUint_iff _ _ _).1 a3) ?_
      refine .cons ((decUint_iff _ _ _).1 a4) ?_
      refine .cons ((decUint_iff _ _ _).1 a5) ?_
      refine .cons ((decUint_iff _ _ _).1 a6) ?_
      exact .nil
    · cases h
  · rintro ⟨l, hl, hf⟩
    refine Option.bind_eq_some_iff.2 ⟨l, hl, ?_⟩
    obtain _ | ⟨a1, hf⟩ := hf
    obtain _ | ⟨a2, hf⟩ := hf
    obtain _ | ⟨a3, hf⟩ := hf
    obtain _ | ⟨a4, hf⟩ := hf
    obtain _ | ⟨a5, hf⟩ := hf
    obtain _ | ⟨a6, hf⟩ := hf
    cases hf
    refine Option.bind_eq_some_iff.2 ⟨_, (decAddrDirect_iff _ _ _).2 a1, ?_⟩
    refine Option.bind_eq_some_iff.2 ⟨_, (decAddrDirect_iff _ _ _).2 a2, ?_⟩
    refine Option.bind_eq_some_iff.2 ⟨_, (decUint_iff _ _ _).2 a3, ?_⟩
    refine Option.bind_eq_some_iff.2 ⟨_, (decUint_iff _ _ _).2 a4, ?_⟩
    refine Option.bind_eq_some_iff.2 ⟨_, (decUint_iff _ _ _).2 a5, ?_⟩
    refine Option.bind_eq_some_iff.2 ⟨_, (decUint_iff _ _ _).2 a6, ?_⟩
    rfl

theorem decUpgradeVote_iff (v : MP) (x : UpgradeVote) : decUpgradeVote v = some x ↔ IsVote x v := by
  obtain ⟨x1, x2, x3⟩ := x
  rw [IsVote, isStruct_iff, decUpgradeVote]
  constructor
  · intro h
    obtain ⟨l, hl, h⟩ := Option.bind_eq_some_iff.1 h
    split at h
    · obtain ⟨_, a1, h⟩ := Option.bind_eq_some_iff.1 h
      obtain ⟨_, a2, h⟩ := Option.bind_eq_some_iff.1 h
      obtain ⟨_, a3, h⟩ := Option.bind_eq_some_iff.1 h
      injection h with e
      injection e with f1 f2 f3
      subst f1 f2 f3
      refine ⟨_, hl, ?_⟩
      refine .cons ((decVersion_iff _ _).1 a1) ?_
      refine .cons ((decUint_iff _ _ _).1 a2) ?_
      refine .cons ((decBool_iff _ _).1 a3) ?_
      exact .nil
    · cases h
  · rintro ⟨l, hl, hf⟩
    refine Option.bind_eq_some_iff.2 ⟨l, hl, ?_⟩
    obtain _ | ⟨a1, hf⟩ := hf
    obtain _ | ⟨a2, hf⟩ := hf
    obtain _ | ⟨a3, hf⟩ := hf
    cases hf
    refine Option.bind_eq_some_iff.2 ⟨_, (decVersion_iff _ _).2 a1, ?_⟩
    refine Option.bind_eq_some_iff.2 ⟨_, (decUint_iff _ _ _).2 a2, ?_⟩
    refine Option.bind_eq_some_iff.2 ⟨_, (decBool_iff _ _).2 a3, ?_⟩
    rfl

theorem decCertState_iff (v : MP) (x : CertState) : decCertState v = some x ↔ IsCertState x v := by
  obtain ⟨x1, x2, x3⟩ := x
  rw [IsCertState, isStruct_iff, decCertState]
  constructor
  · intro h
    obtain ⟨l, hl, h⟩ := Option.bind_eq_some_iff.1 h
    split at h
    · obtain ⟨_, a1, h⟩ := Option.bind_eq_some_iff.1 h
      obtain ⟨_, a2, h⟩ := Option.bind_eq_some_iff.1 h
      obtain ⟨_, a3, h⟩ := Option.bind_eq_some_iff.1 h
      injection h with e
      injection e with f1 f2 f3
      subst f1 f2 f3
      refine ⟨_, hl, ?_⟩
      refine .cons ((decArr_iff _ _ _).1 a1) ?_
      refine .cons ((decUint_iff _ _ _).1 a2) ?_
      refine .cons ((decUint_iff _ _ _).1 a3) ?_
      exact .nil
    · cases h
  · rintro ⟨l, hl, hf⟩
    refine Option.bind_eq_some_iff.2 ⟨l, hl, ?_⟩
    obtain _ | ⟨a1, hf⟩ := hf
    obtain _ | ⟨a2, hf⟩ := hf
    obtain _ | ⟨a3, hf⟩ := hf
    cases hf
    refine Option.bind_eq_some_iff.2 ⟨_, (decArr_iff _ _ _).2 a1, ?_⟩
    refine Option.bind_eq_some_iff.2 ⟨_, (decUint_iff _ _ _).2 a2, ?_⟩
    refine Option.bind_eq_some_iff.2 ⟨_, (decUint_iff _ _ _).2 a3, ?_⟩
    rfl

theorem decCertKind_iff (v : MP) (u : Unit) : decVariant [()] (fun _ => basicName) v = some u ↔ IsCertKind u v :=
  decVariant_iff rfl (by simp) v ()

theorem unit_entries {ν : Type} {es l : List (Unit × ν)} (h : LastWins es l) : l.length ≤ 1 := by
  induction h with
  | nil => simp
  | keep k x es l h hl ih =>
    cases es with
    | nil => cases hl; simp
    | cons e es => exact absurd rfl (h e (by simp))
  | replaced k x es l h hl ih => exact ih

theorem decCerts_iff (v : MP) (o : Option CertState) : decCerts v = some o ↔ IsCerts o v := by
  rw [decCerts, IsCerts]
  constructor
  · intro h
    obtain ⟨l, hl, h⟩ := Option.bind_eq_some_iff.1 h
    injection h with h
    have hm := (decMap_iff decCertKind_iff decCertState_iff v l).1 hl
    obtain ⟨kvs, es, e, hf, hw⟩ := hm
    have hlen := unit_entries hw
    have : l = o.toList.map fun c => ((), c) := by
      subst h
      match l, hlen with
      | [], _ => rfl
      | [_], _ => rfl
    rw [← this]
    exact ⟨kvs, es, e, hf, hw⟩
  · intro h
    refine Option.bind_eq_some_iff.2 ⟨_, (decMap_iff decCertKind_iff decCertState_iff v _).2 h, ?_⟩
    cases o <;> rfl

theorem decBlockHeader_iff (L : Lib) (v : MP) (x : HeaderBody) : decBlockHeader L v = some ⟨x, ⟨.v30, none, 0, 0, 0⟩⟩ ↔ IsBlockHeader L x v := by
  obtain ⟨x1, x2, x3, x4, x5, x6, x7, x8, x9, x10, x11⟩ := x
  rw [IsBlockHeader, isStruct_iff, decBlockHeader]
  constructor
  · intro h
    obtain ⟨l, hl, h⟩ := Option.bind_eq_some_iff.1 h
    split at h
    · obtain ⟨_, a1, h⟩ := Option.bind_eq_some_iff.1 h
      obtain ⟨_, a2, h⟩ := Option.bind_eq_some_iff.1 h
      obtain ⟨_, a3, h⟩ := Option.bind_eq_some_iff.1 h
      obtain ⟨_, a4, h⟩ := Option.bind_eq_some_iff.1 h
      obtain ⟨_, a5, h⟩ := Option.bind_eq_some_iff.1 h
      obtain ⟨_, a6, h⟩ := Option.bind_eq_some_iff.1 h
      obtain ⟨_, a7, h⟩ := Option.bind_eq_some_iff.1 h
      obtain ⟨_, a8, h⟩ := Option.bind_eq_some_iff.1 h
      obtain ⟨_, a9, h⟩ := Option.bind_eq_some_iff.1 h
      obtain ⟨_, a10, h⟩ := Option.bind_eq_some_iff.1 h
      obtain ⟨_, a11, h⟩ := Option.bind_eq_some_iff.1 h
      injection h with e
      injection e with e _
      injection e with f1 f2 f3 f4 f5 f6 f7 f8 f9 f10 f11
      subst f1 f2 f3 f4 f5 f6 f7 f8 f9 f10 f11
      refine ⟨_, hl, ?_⟩
      refine .cons ((decUint_iff _ _ _).1 a1) ?_
      refine .cons ((decArr_iff _ _ _).1 a2) ?_
      refine .cons ((decArr_iff _ _ _).1 a3) ?_
      refine .cons ((decArr_iff _ _ _).1 a4) ?_
      refine .cons ((decUint_iff _ _ _).1 a5) ?_
      refine .cons ((decStr_iff _ _).1 a6) ?_
      refine .cons ((decArr_iff _ _ _).1 a7) ?_
      refine .cons ((decRewards_iff _ _ _).1 a8) ?_
      refine .cons ((decUpgradeVote_iff _ _).1 a9) ?_
      refine .cons ((decUint_iff _ _ _).1 a10) ?_
      refine .cons ((decCerts_iff _ _).1 a11) ?_
      exact .nil
    · cases h
  · rintro ⟨l, hl, hf⟩
    refine Option.bind_eq_some_iff.2 ⟨l, hl, ?_⟩
    obtain _ | ⟨a1, hf⟩ := hf
    obtain _ | ⟨a2, hf⟩ := hf
    obtain _ | ⟨a3, hf⟩ := hf
    obtain _ | ⟨a4, hf⟩ := hf
    obtain _ | ⟨a5, hf⟩ := hf
    obtain _ | ⟨a6, hf⟩ := hf
    obtain _ | ⟨a7, hf⟩ := hf
    obtain _ | ⟨a8, hf⟩ := hf
    obtain _ | ⟨a9, hf⟩ := hf
    obtain _ | ⟨a10, hf⟩ := hf
    obtain _ | ⟨a11, hf⟩ := hf
    cases hf
    refine Option.bind_eq_some_iff.2 ⟨_, (decUint_iff _ _ _).2 a1, ?_⟩
    refine Option.bind_eq_some_iff.2 ⟨_, (decArr_iff _ _ _).2 a2, ?_⟩
    refine Option.bind_eq_some_iff.2 ⟨_, (decArr_iff _ _ _).2 a3, ?_⟩
    refine Option.bind_eq_some_iff.2 ⟨_, (decArr_iff _ _ _).2 a4, ?_⟩
    refine Option.bind_eq_some_iff.2 ⟨_, (decUint_iff _ _ _).2 a5, ?_⟩
    refine Option.bind_eq_some_iff.2 ⟨_, (decStr_iff _ _).2 a6, ?_⟩
    refine Option.bind_eq_some_iff.2 ⟨_, (decArr_iff _ _ _).2 a7, ?_⟩
    refine Option.bind_eq_some_iff.2 ⟨_, (decRewards_iff _ _ _).2 a8, ?_⟩
    refine Option.bind_eq_some_iff.2 ⟨_, (decUpgradeVote_iff _ _).2 a9, ?_⟩
    refine Option.bind_eq_some_iff.2 ⟨_, (decUint_iff _ _ _).2 a10, ?_⟩
    refine Option.bind_eq_some_iff.2 ⟨_, (decCerts_iff _ _).2 a11, ?_⟩
    rfl

/-- **C131**: a byte string is read as a header exactly if it begins with the MessagePack form of one: the fields in
order, or each of them exactly once under its name or position. -/
theorem C131_reads (L : Lib) (bs : Bytes) (h : BlockHeader) :
    decodeHeader L bs = some h ↔
      h.upgradeState = ⟨.v30, none, 0, 0, 0⟩ ∧ ∃ v p rest, bs = p ++ rest ∧ Repr v p ∧ IsBlockHeader L h.body v := by
  obtain ⟨b, s⟩ := h
  rw [decodeHeader]
  constructor
  · intro h
    obtain ⟨⟨v, rest⟩, h1, h2⟩ := Option.bind_eq_some_iff.1 h
    have hs : s = ⟨.v30, none, 0, 0, 0⟩ := by
      rw [decBlockHeader] at h2
      obtain ⟨l, _, h2⟩ := Option.bind_eq_some_iff.1 h2
      split at h2
      · iterate 11
          replace h2 := (Option.bind_eq_some_iff.1 h2).choose_spec.2
        injection h2 with h2
        injection h2 with _ h2
        exact h2.symm
      · cases h2
    subst hs
    obtain ⟨p, e, hp⟩ := (C119_reader _ _ _).1 h1
    exact ⟨rfl, v, p, rest, e, hp, (decBlockHeader_iff L v b).1 h2⟩
  · rintro ⟨hs, v, p, rest, e, hp, h2⟩
    simp only at hs
    subst hs
    exact Option.bind_eq_some_iff.2 ⟨(v, rest), (C119_reader _ _ _).2 ⟨p, e, hp⟩, (decBlockHeader_iff L v b).2 h2⟩

/-- **C131**, positions: the eleven values of a header may also be given in a map, each under its position instead of
its name. -/
theorem C131_positions (L : Lib) (l : List MP) (h : l.length = 11) :
    decBlockHeader L (.map (byPosition 0 l)) = decBlockHeader L (.arr l) := by
  rw [decBlockHeader, decBlockHeader, decStruct_byPosition headerNames l h]

/-- Consequence: an accepted header has the sizes that its Rust type asks for. -/
theorem C131_sizes (L : Lib) (bs : Bytes) (h : BlockHeader) (hd : decodeHeader L bs = some h) :
    h.body.round < 2 ^ 64 ∧ h.body.branch.length = 32 ∧ h.body.txRoot.length = 32 ∧ h.body.genesisHash.length = 32 ∧
      IsUtf8 h.body.genesisId := by
  obtain ⟨_, v, _, _, _, _, hs⟩ := (C131_reads L bs h).1 hd
  rw [IsBlockHeader, isStruct_iff] at hs
  obtain ⟨l, _, hf⟩ := hs
  obtain _ | ⟨a1, hf⟩ := hf
  obtain _ | ⟨a2, hf⟩ := hf
  obtain _ | ⟨a3, hf⟩ := hf
  obtain _ | ⟨a4, hf⟩ := hf
  obtain _ | ⟨a5, hf⟩ := hf
  obtain _ | ⟨a6, hf⟩ := hf
  obtain _ | ⟨a7, hf⟩ := hf
  exact ⟨a1.2, a2.2, a4.2, a7.2, a6.2⟩

/-! ## C132: paysets survive being sent -/

/-- A payset of its Rust type. -/
def PaysetExact (L : Lib) (p : List (Stib ApplyData)) : Prop := p.length < u32Lim ∧ ∀ s ∈ p, StibExact L s

/-- All transactions of a payset, with the inner transactions of every level. -/
def allTxs (p : List (Stib ApplyData)) : List SignedTx := p.flatMap fun s => s.tx.tx :: s.tx.ad.txs

/-- A signed transaction that is read back (C67). -/
def Survives (L : Lib) (s : SignedTx) : Prop :=
  s.sig ≠ List.replicate 64 0 ∧ s.msig ≠ none ∧ s.lsig ≠ none ∧ txAddrs s.tx = [] ∧
    (s.authAddr = List.replicate 32 0 ∨ L.binAsSeq = true)

/-- The flags after reading: the first one is set if any was, the second one if both were. -/
def readFlags {AD : Type} (s : Stib AD) : Stib AD :=
  ⟨s.tx, s.hasGenesisId || s.hasGenesisHash, s.hasGenesisId && s.hasGenesisHash⟩

open Classical in
/-- **C132**: what reading back a payset gives, exactly: nothing, unless every transaction in it, inner ones included, is
one of those that C67 lists; and then everything but the flags. Missing: all other paysets, and the flags. -/
theorem C132_read_back_partial (L : Lib) (p : List (Stib ApplyData)) (h : PaysetExact L p) (rest : Bytes) :
    decodePayset L (encodePayset p ++ rest) =
      if ∀ t ∈ allTxs p, Survives L t then some (p.map readFlags) else none := by
  rw [decodePayset, encodePayset, decode_enc _ _ (fits_payset ⟨h.1, fun s hs => (h.2 s hs).sizes⟩)]
  exact (decPayset_mp h.2).trans (by congr)

/-- C132: a payset is read back as it was exactly if its transactions survive and no transaction has the second flag
only. Missing: all other paysets. -/
theorem C132_survivors_partial (L : Lib) (p : List (Stib ApplyData)) (h : PaysetExact L p) (rest : Bytes) :
    decodePayset L (encodePayset p ++ rest) = some p ↔
      (∀ t ∈ allTxs p, Survives L t) ∧ ∀ s ∈ p, ¬ (s.hasGenesisId = false ∧ s.hasGenesisHash = true) := by
  rw [C132_read_back_partial L p h rest]
  have flags : ∀ s : Stib ApplyData, readFlags s = s ↔ ¬ (s.hasGenesisId = false ∧ s.hasGenesisHash = true) := by
    rintro ⟨t, g, gh⟩
    cases g <;> cases gh <;> simp [readFlags]
  have key : p.map readFlags = p ↔ ∀ s ∈ p, ¬ (s.hasGenesisId = false ∧ s.hasGenesisHash = true) := by
    clear h
    induction p with
    | nil => simp
    | cons s p ih => rw [List.map_cons, List.cons.injEq, ih, flags, List.forall_mem_cons]
  by_cases c : ∀ t ∈ allTxs p, Survives L t
  · rw [if_pos c, Option.some.injEq, key]
    exact ⟨fun h => ⟨c, h⟩, fun h => h.2⟩
  · rw [if_neg c]
    exact ⟨fun h => (by cases h), fun h => absurd h.1 c⟩

/-- C132 is violated: a payset with a transaction that lacks one of the three kinds of signature cannot be read. -/
theorem C132_lost (L : Lib) (p : List (Stib ApplyData)) (h : PaysetExact L p) (rest : Bytes) (t : SignedTx) (ht : t ∈ allTxs p)
    (hs : t.sig = List.replicate 64 0 ∨ t.msig = none ∨ t.lsig = none) : decodePayset L (encodePayset p ++ rest) = none := by
  rw [C132_read_back_partial L p h rest, if_neg]
  intro hc
  obtain ⟨h1, h2, h3, _⟩ := hc t ht
  rcases hs with e | e | e
  · exact h1 e
  · exact h2 e
  · exact h3 e

/-- A transaction that survives. -/
def surviving : SignedTx :=
  ⟨List.replicate 64 7, some ⟨1, 1, []⟩, some ⟨[1], List.replicate 64 0, ⟨0, 0, []⟩, []⟩, toyCert, zero32⟩

theorem surviving_typed (b : Bool) : StxTyped (anyKey b) surviving :=
  ⟨⟨by decide, rfl⟩,
    fun m hm => by simp only [surviving, Option.some.injEq] at hm; subst hm; exact ⟨by decide, by simp, by simp⟩,
    fun l hl => by
      simp only [surviving, Option.some.injEq] at hl; subst hl
      exact ⟨by decide, ⟨by decide, rfl⟩, ⟨by decide, by simp, by simp⟩, ⟨by decide, by simp⟩⟩,
    toyCert_typed _, by decide⟩

theorem default_exact (L : Lib) : ApplyData.default.Exact L := by
  have hm : ∀ {κ ν : Type} (K : κ → Prop) (V : ν → Prop), MapTyped K V [] := fun K V => ⟨show 0 < u32Lim by decide, by simp, by simp⟩
  rw [ApplyData.default, ApplyData.Exact]
  exact ⟨⟨by decide, by decide, by decide, by decide, by decide, hm _ _, hm _ _, ⟨by decide, by simp [AdFlat.default]⟩,
    by decide, by decide⟩, by decide, by simp [InnerTxs.Exact]⟩

theorem survives (b : Bool) : Survives (anyKey b) surviving := by
  refine ⟨by decide, by simp [surviving], by simp [surviving], by decide, .inl rfl⟩

/-- C132 is violated without an error: whatever the libraries do, a payset whose transaction carries the genesis hash of
the block is read as one whose transaction carries the genesis id instead, and the transaction that the block then stands
for is another one. -/
theorem C132_violated_silently (b : Bool) :
    ∃ (p p' : List (Stib ApplyData)) (tbl : Protocols) (h : BlockHeader) (t t' : List (Stad ApplyData)),
      PaysetExact (anyKey b) p ∧ decodePayset (anyKey b) (encodePayset p) = some p' ∧
      decodePaysetFlat tbl h p = .ok t ∧ decodePaysetFlat tbl h p' = .ok t' ∧ t ≠ t' := by
  have hx : PaysetExact (anyKey b) [⟨⟨surviving, .default⟩, false, true⟩] :=
    ⟨by decide, fun s hs => by
      rw [List.mem_singleton] at hs
      subst hs
      exact ⟨surviving_typed b, default_exact _⟩⟩
  have hr := C132_read_back_partial (anyKey b) _ hx []
  rw [List.append_nil, if_pos (fun t ht => by
    simp only [allTxs, List.flatMap_cons, List.flatMap_nil, List.append_nil, List.mem_cons, ApplyData.default, ApplyData.txs,
      InnerTxs.txs, List.not_mem_nil, or_false] at ht
    subst ht
    exact survives b)] at hr
  obtain ⟨params, hl, hs, hq⟩ : ∃ params, lookup builtin .v15 = some params ∧ params.supportSignedTxInBlock = true ∧
      params.requireGenesisHash = false := by
    have h1 : (lookup builtin .v15).map (fun p => (p.supportSignedTxInBlock, p.requireGenesisHash)) = some (true, false) := by
      decide +kernel
    cases hl : lookup builtin .v15 with
    | none => rw [hl] at h1; cases h1
    | some p =>
      rw [hl] at h1
      simp only [Option.map_some, Option.some.injEq, Prod.mk.injEq] at h1
      exact ⟨p, rfl, h1.1, h1.2⟩
  have hz : surviving.tx.header.genesisId = [] := rfl
  have hz' : surviving.tx.header.genesisHash = Block.zeroHash := rfl
  have h1 : decodePaysetFlat builtin ⟨sentBody, ⟨.v15, none, 0, 0, 0⟩⟩ [(⟨⟨surviving, .default⟩, false, true⟩ : Stib ApplyData)] =
      .ok [⟨{ surviving with tx := { surviving.tx with header :=
        { surviving.tx.header with genesisHash := sentBody.genesisHash } } }, .default⟩] := by
    simp only [decodePaysetFlat, decodeSignedTx, hl, Res.ofOption, Res.ok_bind, hs, hz, hz', hq]
    rfl
  have h2 : decodePaysetFlat builtin ⟨sentBody, ⟨.v15, none, 0, 0, 0⟩⟩
      ([(⟨⟨surviving, .default⟩, false, true⟩ : Stib ApplyData)].map readFlags) =
      .ok [⟨{ surviving with tx := { surviving.tx with header :=
        { surviving.tx.header with genesisId := sentBody.genesisId } } }, .default⟩] := by
    simp only [List.map_cons, List.map_nil, readFlags, decodePaysetFlat, decodeSignedTx, hl, Res.ofOption, Res.ok_bind, hs,
      hz, hz', hq]
    rfl
  refine ⟨_, _, builtin, _, _, _, hx, hr, h1, h2, fun e => ?_⟩
  have := congrArg (fun l => (l.map fun s => s.tx.tx.header.genesisId)) e
  simp [sentBody, surviving, toyCert, Header.default] at this

/-- A payset that survives, with an inner transaction. -/
example : decodePayset (anyKey false) (encodePayset
    [⟨⟨surviving, .mk { AdFlat.default with closingAmount := 5, logs := [[97]] } (.cons surviving .default .nil)⟩, true, false⟩]) =
    some [⟨⟨surviving, .mk { AdFlat.default with closingAmount := 5, logs := [[97]] } (.cons surviving .default .nil)⟩, true, false⟩] := by
  have hx : PaysetExact (anyKey false)
      [⟨⟨surviving, .mk { AdFlat.default with closingAmount := 5, logs := [[97]] } (.cons surviving .default .nil)⟩, true, false⟩] := by
    have hm : ∀ {κ ν : Type} (K : κ → Prop) (V : ν → Prop), MapTyped K V [] := fun K V => ⟨show 0 < u32Lim by decide, by simp, by simp⟩
    refine ⟨by decide, fun s hs => ?_⟩
    rw [List.mem_singleton] at hs
    subst hs
    refine ⟨surviving_typed _, ?_⟩
    rw [ApplyData.Exact]
    refine ⟨⟨by decide, by decide, by decide, by decide, by decide, hm _ _, hm _ _, ⟨by decide, ?_⟩, by decide, by decide⟩,
      by decide, ?_⟩
    · intro s hs
      rw [List.mem_singleton] at hs
      subst hs
      exact ⟨by decide, by decide⟩
    · rw [InnerTxs.Exact]
      exact ⟨surviving_typed _, default_exact _, by simp [InnerTxs.Exact]⟩
  have := (C132_survivors_partial _ _ hx []).2 ⟨fun t ht => by
    simp only [allTxs, List.flatMap_cons, List.flatMap_nil, List.append_nil, List.mem_cons, ApplyData.default, ApplyData.txs,
      InnerTxs.txs, List.not_mem_nil, or_false, or_self] at ht
    subst ht
    exact survives _, by simp⟩
  rwa [List.append_nil] at this

/-- A case of `C130_violated`: a header in the middle of a vote. -/
example : decodeHeader (anyKey true) (encodeHeader ⟨sentBody, ⟨.v29, some .v30, 3, 100, 200⟩⟩ ++ [1]) ≠
    some ⟨sentBody, ⟨.v29, some .v30, 3, 100, 200⟩⟩ := C130_violated _ _ (sentBody_exact _) _ (by simp)

/-- A case of `C131_reads` and `C131_sizes`: the bytes of that header are a message for its body. -/
example : (∃ v p rest, encodeHeader ⟨sentBody, ⟨.v29, some .v30, 3, 100, 200⟩⟩ ++ [1] = p ++ rest ∧ Repr v p ∧
    IsBlockHeader (anyKey true) sentBody v) ∧ sentBody.branch.length = 32 := by
  have h := C130_read_back_partial (anyKey true) ⟨sentBody, ⟨.v29, some .v30, 3, 100, 200⟩⟩ (sentBody_exact _) [1]
  exact ⟨((C131_reads _ _ _).1 h).2, (C131_sizes _ _ _ h).2.1⟩

/-- A case of `C131_positions`: eleven values given by position. -/
example : decBlockHeader (anyKey true) (.map (byPosition 0 (List.replicate 11 (.uint 1)))) =
    decBlockHeader (anyKey true) (.arr (List.replicate 11 (.uint 1))) := C131_positions _ _ rfl

/-- A case of `C132_read_back_partial` and `C132_lost`: a payset with one plainly signed transaction cannot be read. -/
example : decodePayset (anyKey false) (encodePayset [⟨⟨{ surviving with msig := none }, .default⟩, true, false⟩] ++ []) = none := by
  refine C132_lost _ _ ⟨by decide, fun s hs => ?_⟩ [] { surviving with msig := none } (by simp [allTxs]) (Or.inr (Or.inl rfl))
  rw [List.mem_singleton] at hs
  subst hs
  refine ⟨?_, default_exact _⟩
  obtain ⟨h1, _, h3, h4, h5⟩ := surviving_typed false
  exact ⟨h1, by simp, h3, h4, h5⟩

end Verif.Props
