import Verif.Model.BlockRead
import Verif.Lemmas.Genesis
import Verif.Lemmas.CodecStx
/-!
# What the derived readers make of the encodings of headers and paysets
-/

namespace Verif.Codec
open Verif Verif.Msgpack Verif.Tx Verif.Block Verif.HashId Verif.Consensus Verif.Genesis

/-! ## Headers -/

theorem decAddrDirect_not {L : Lib} (hL : L.binAsSeq = false) (b : Bytes) : decAddrDirect L (.bin b) = none := by
  simp [decAddrDirect, hL]

theorem decRewards_mp {L : Lib} (r : RewardsState) (h1 : r.feeSink.length = 32) (h2 : r.rewardsPool.length = 32)
    (h3 : r.level < u64Lim) (h4 : r.rate < u64Lim) (h5 : r.residue < u64Lim) (h6 : r.recalculationRound < u64Lim) :
    decRewards L (rewardsMP r) = if L.binAsSeq = true then some r else none := by
  rw [rewardsMP, decRewards, decStruct_arr rfl]
  cases hL : L.binAsSeq with
  | true =>
    simp only [bind, Option.bind_some, decAddrDirect_bin hL h1, decAddrDirect_bin hL h2, decUint_lt h3, decUint_lt h4,
      decUint_lt h5, decUint_lt h6, if_true]
  | false => simp [decAddrDirect_not hL]

theorem decUpgradeVote_mp (v : UpgradeVote) (h : v.delay < u64Lim) : decUpgradeVote (upgradeVoteMP v) = some v := by
  rw [upgradeVoteMP, decUpgradeVote, decStruct_arr rfl]
  simp only [bind, Option.bind_some, decVersion_name, decUint_lt h, decBool]

theorem decCertState_mp (c : CertState) (h1 : c.voters.length = 32) (h2 : c.votersTotal < u64Lim) (h3 : c.nextRound < u64Lim) :
    decCertState (certStateMP c) = some c := by
  rw [certStateMP, decCertState, decStruct_arr rfl]
  simp only [bind, Option.bind_some, decArr_bytesArr, if_pos h1, decUint_lt h2, decUint_lt h3]

theorem decBasic : decVariant [()] (fun _ => basicName) (strLit basicName) = some () := by decide

theorem decCerts_mp (o : Option CertState)
    (h : ∀ c, o = some c → c.voters.length = 32 ∧ c.votersTotal < u64Lim ∧ c.nextRound < u64Lim) :
    decCerts (certsMP o) = some o := by
  cases o with
  | none => rfl
  | some c =>
    obtain ⟨h1, h2, h3⟩ := h c rfl
    rw [certsMP, decCerts, decMap]
    simp only [decEntries, decBasic, decCertState_mp c h1 h2 h3, bind, Option.bind_some]
    rfl

theorem decBlockHeader_mp {L : Lib} {h : HeaderBody} (t : HeaderBodyTyped h) (hu : utf8 h.genesisId = true) :
    decBlockHeader L (headerMP h) = if L.binAsSeq = true then some ⟨h, .default⟩ else none := by
  rw [headerMP, decBlockHeader, decStruct_arr rfl]
  have hr := decRewards_mp (L := L) h.rewards t.feeSink t.rewardsPool t.level t.rate t.residue t.recalculationRound
  have hg : decStr (.str h.genesisId) = some h.genesisId := by rw [decStr, if_pos hu]
  simp only [bind, Option.bind_some, decUint_lt t.round, decArr_bytesArr, if_pos t.branch, if_pos t.seed, if_pos t.txRoot,
    decUint_lt t.timestamp, hg, if_pos t.genesisHash, hr, decUpgradeVote_mp _ t.delay, decUint_lt t.txCounter,
    decCerts_mp _ t.certs]
  cases L.binAsSeq <;> rfl

/-! ## Paysets -/

/-- A signed transaction that can be read back (see `decStx_eq`). -/
def StxReads (L : Lib) (s : SignedTx) : Prop :=
  s.sig ≠ zero64 ∧ s.msig ≠ none ∧ s.lsig ≠ none ∧ txAddrs s.tx = [] ∧ (s.authAddr = zero32 ∨ L.binAsSeq = true)

instance (L : Lib) (s : SignedTx) : Decidable (StxReads L s) := by unfold StxReads; infer_instance

mutual
/-- The inner transactions of apply data, at every level. -/
def ApplyData.txs : ApplyData → List SignedTx
  | .mk _ i => i.txs
/-- The transactions of a list of inner transactions, at every level. -/
def InnerTxs.txs : InnerTxs → List SignedTx
  | .nil => []
  | .cons t a r => t :: (a.txs ++ r.txs)
end

/-- The inner transactions as a list. -/
def InnerTxs.toList : InnerTxs → List (Stad ApplyData)
  | .nil => []
  | .cons t a r => ⟨t, a⟩ :: r.toList

theorem ofList_toList : ∀ i : InnerTxs, InnerTxs.ofList i.toList = i
  | .nil => rfl
  | .cons t a r => by rw [InnerTxs.toList, InnerTxs.ofList, ofList_toList r]

/-- A `StateDelta`. -/
def DeltasTyped (l : List (Bytes × Teal.ValueDelta)) : Prop :=
  MapTyped TextTyped (fun d : Teal.ValueDelta => d.bytes.length < u32Lim ∧ d.uint < u64Lim) l

/-- The values of apply data are those of their Rust types: sizes, UTF-8 in strings, no key of a map twice. -/
structure AdFlatExact (f : AdFlat) : Prop where
  closingAmount : f.closingAmount < u64Lim
  assetClosingAmount : f.assetClosingAmount < u64Lim
  senderRewards : f.senderRewards < u64Lim
  receiverRewards : f.receiverRewards < u64Lim
  closeRewards : f.closeRewards < u64Lim
  globalDelta : DeltasTyped f.globalDelta
  localDeltas : MapTyped (· < u64Lim) DeltasTyped f.localDeltas
  logs : f.logs.length < u32Lim ∧ ∀ s ∈ f.logs, TextTyped s
  configAsset : f.configAsset < u64Lim
  applicationId : f.applicationId < u64Lim

mutual
/-- Apply data of its Rust type. -/
def ApplyData.Exact (L : Lib) : ApplyData → Prop
  | .mk f i => AdFlatExact f ∧ i.length < u32Lim ∧ i.Exact L
/-- Inner transactions of their Rust type. -/
def InnerTxs.Exact (L : Lib) : InnerTxs → Prop
  | .nil => True
  | .cons t a r => StxTyped L t ∧ a.Exact L ∧ r.Exact L
end

theorem DeltasTyped.sizes {l : List (Bytes × Teal.ValueDelta)} (h : DeltasTyped l) : StateDeltaTyped l :=
  ⟨h.1, fun e he => ⟨(h.2.2 e he).1.1, (h.2.2 e he).2⟩⟩

theorem AdFlatExact.sizes {f : AdFlat} (h : AdFlatExact f) : AdFlatTyped f :=
  ⟨h.closingAmount, h.assetClosingAmount, h.senderRewards, h.receiverRewards, h.closeRewards, h.globalDelta.sizes,
    ⟨h.localDeltas.1, fun e he => ⟨(h.localDeltas.2.2 e he).1, (h.localDeltas.2.2 e he).2.sizes⟩⟩,
    ⟨h.logs.1, fun s hs => (h.logs.2 s hs).1⟩, h.configAsset, h.applicationId⟩

mutual
theorem ApplyData.Exact.sizes {L : Lib} : ∀ {a : ApplyData}, a.Exact L → a.Typed
  | .mk _ _, h => by
    rw [ApplyData.Exact] at h
    rw [ApplyData.Typed]
    exact ⟨h.1.sizes, h.2.1, InnerTxs.Exact.sizes h.2.2⟩
theorem InnerTxs.Exact.sizes {L : Lib} : ∀ {i : InnerTxs}, i.Exact L → i.Typed
  | .nil, _ => by simp [InnerTxs.Typed]
  | .cons _ _ _, h => by
    rw [InnerTxs.Exact] at h
    rw [InnerTxs.Typed]
    exact ⟨h.1.sizes, ApplyData.Exact.sizes h.2.1, InnerTxs.Exact.sizes h.2.2⟩
end

theorem decAction (a : Teal.DeltaAction) : decVariant [.setBytes, .setUint, .delete] actionName (strLit (actionName a)) = some a := by
  cases a <;> decide

theorem decValueDelta_mp {d : Teal.ValueDelta} (h : d.bytes.length < u32Lim ∧ d.uint < u64Lim) :
    decValueDelta (valueDeltaMP d) = some d := by
  rw [valueDeltaMP, decValueDelta, decStruct_arr rfl]
  simp only [bind, Option.bind_some, decAction, decBytes_bytesArr, decUint_lt h.2]

theorem decStateDelta_mp {l : List (Bytes × Teal.ValueDelta)} (h : DeltasTyped l) : decStateDelta (stateDeltaMP l) = some l :=
  decMap_mapMP (k := .str) (v := valueDeltaMP) h (fun _ ha => decText ha) (fun _ ha => decValueDelta_mp ha)

theorem decLocalDeltas_mp {l : List (Nat × List (Bytes × Teal.ValueDelta))} (h : MapTyped (· < u64Lim) DeltasTyped l) :
    decMap (decUint u64Lim) decStateDelta (localDeltasMP l) = some l :=
  decMap_mapMP (k := .uint) (v := stateDeltaMP) h (fun _ ha => decUint_lt ha) (fun _ ha => decStateDelta_mp ha)

theorem decLogs_mp {l : List Bytes} (h : ∀ s ∈ l, TextTyped s) : decVec decStr (.arr (l.map .str)) = some l :=
  decVec_map decStr .str l (fun b hb => decText (h b hb))

theorem decStad_arr (L : Lib) (ad : MP → Option ApplyData) (t : SignedTx) (a : ApplyData) (c : Prop) [Decidable c]
    (ht : StxTyped L t) (h : a.isDefault = false → ad (adMP a) = if c then some a else none)
    (hd : a.isDefault = true → c) :
    decStadWith L ad (.arr (stxMP t :: (if a.isDefault then [] else [adMP a]))) =
      if StxReads L t ∧ c then some ⟨t, a⟩ else none := by
  rw [decStadWith, next, decStx_eq ht]
  change (if StxReads L t then some t else none : Option SignedTx).map _ >>= _ = _
  by_cases h1 : StxReads L t
  · rw [if_pos h1]
    cases hda : a.isDefault with
    | true =>
      rw [if_pos (c := StxReads L t ∧ c) ⟨h1, hd hda⟩, isDefault_eq hda]
      rfl
    | false =>
      have := h hda
      by_cases hc : c
      · rw [if_pos hc] at this
        rw [if_pos (c := StxReads L t ∧ c) ⟨h1, hc⟩]
        simp [nextOr, this]
      · rw [if_neg hc] at this
        rw [if_neg (c := StxReads L t ∧ c) (fun x => hc x.2)]
        simp [nextOr, this]
  · rw [if_neg h1, if_neg (c := StxReads L t ∧ c) (fun x => h1 x.1)]
    rfl

theorem depth_inner (f : AdFlat) (l : List MP) : depthList l + 1 ≤ depthMP (adWith f l) := by
  simp only [adWith, depthMP, depthList]
  omega

mutual
theorem decAdN_mp (L : Lib) : ∀ (a : ApplyData) (n : Nat), a.Exact L → depthMP (adMP a) ≤ n →
    decAdN L n (adMP a) = if ∀ t ∈ a.txs, StxReads L t then some a else none
  | .mk f i, n, h, hn => by
    rw [ApplyData.Exact] at h
    rw [adMP] at hn ⊢
    have hdep := depth_inner f (innerMP i)
    obtain ⟨m, rfl⟩ : ∃ m, n = m + 1 := ⟨n - 1, by omega⟩
    have hi := decInner_mp L i m h.2.2 (by omega)
    have hf := h.1
    rw [decAdN, adWith, decStruct_arr rfl]
    have he : decEvalDelta (decStadWith L (decAdN L m))
        (.arr [stateDeltaMP f.globalDelta, localDeltasMP f.localDeltas, .arr (f.logs.map .str), .arr (innerMP i)]) =
        if ∀ t ∈ i.txs, StxReads L t then some (f.globalDelta, f.localDeltas, f.logs, i) else none := by
      rw [decEvalDelta, decStruct_arr rfl]
      simp only [bind, Option.bind_some, decStateDelta_mp hf.globalDelta, decLocalDeltas_mp hf.localDeltas,
        decLogs_mp hf.logs.2]
      rw [show decVec (decStadWith L (decAdN L m)) (.arr (innerMP i)) = (innerMP i).mapM (decStadWith L (decAdN L m)) from rfl, hi]
      by_cases hc : ∀ t ∈ i.txs, StxReads L t
      · rw [if_pos hc, if_pos hc]
        simp [ofList_toList]
      · rw [if_neg hc, if_neg hc]; rfl
    simp only [bind, Option.bind_some, decUint_lt hf.closingAmount, decUint_lt hf.assetClosingAmount,
      decUint_lt hf.senderRewards, decUint_lt hf.receiverRewards, decUint_lt hf.closeRewards, he,
      decUint_lt hf.configAsset, decUint_lt hf.applicationId]
    by_cases hc : ∀ t ∈ i.txs, StxReads L t
    · rw [if_pos hc, if_pos (by rw [ApplyData.txs]; exact hc)]; rfl
    · rw [if_neg hc, if_neg (by rw [ApplyData.txs]; exact hc)]; rfl
theorem decInner_mp (L : Lib) : ∀ (i : InnerTxs) (n : Nat), i.Exact L → depthList (innerMP i) ≤ n →
    (innerMP i).mapM (decStadWith L (decAdN L n)) = if ∀ t ∈ i.txs, StxReads L t then some i.toList else none
  | .nil, _, _, _ => by simp [innerMP, InnerTxs.txs, InnerTxs.toList]
  | .cons t a r, n, h, hn => by
    rw [InnerTxs.Exact] at h
    rw [innerMP, depthList] at hn
    have h1 := decStad_arr L (decAdN L n) t a (∀ t ∈ a.txs, StxReads L t) h.1
      (fun hd => decAdN_mp L a n h.2.1 (by
        rw [hd] at hn
        simp only [depthMP, depthList, Bool.false_eq_true, if_false] at hn
        omega))
      (fun hd => by rw [isDefault_eq hd]; simp [ApplyData.default, ApplyData.txs, InnerTxs.txs])
    have h2 := decInner_mp L r n h.2.2 (by omega)
    rw [innerMP, List.mapM_cons, h1, h2, InnerTxs.toList]
    have key : (∀ x ∈ (InnerTxs.cons t a r).txs, StxReads L x) ↔
        (StxReads L t ∧ ∀ x ∈ a.txs, StxReads L x) ∧ ∀ x ∈ r.txs, StxReads L x := by
      rw [InnerTxs.txs]
      simp only [List.mem_cons, List.mem_append]
      constructor
      · intro hx
        exact ⟨⟨hx t (.inl rfl), fun x h => hx x (.inr (.inl h))⟩, fun x h => hx x (.inr (.inr h))⟩
      · rintro ⟨⟨h1, h2⟩, h3⟩ x (rfl | h | h)
        · exact h1
        · exact h2 x h
        · exact h3 x h
    by_cases c1 : StxReads L t ∧ ∀ x ∈ a.txs, StxReads L x
    · rw [if_pos c1]
      by_cases c2 : ∀ x ∈ r.txs, StxReads L x
      · rw [if_pos c2, if_pos (key.2 ⟨c1, c2⟩)]; rfl
      · rw [if_neg c2, if_neg (fun hk => c2 (key.1 hk).2)]; rfl
    · rw [if_neg c1, if_neg (fun hk => c1 (key.1 hk).1)]; rfl
end

/-- A transaction in a block of its Rust type. -/
def StibExact (L : Lib) (s : Stib ApplyData) : Prop := StxTyped L s.tx.tx ∧ s.tx.ad.Exact L

/-- The transactions of an entry of a payset, with the inner ones. -/
def stibTxs (s : Stib ApplyData) : List SignedTx := s.tx.tx :: s.tx.ad.txs

/-- What the flags become. -/
def shiftFlags {AD : Type} (s : Stib AD) : Stib AD :=
  { s with hasGenesisId := s.hasGenesisId || s.hasGenesisHash, hasGenesisHash := s.hasGenesisId && s.hasGenesisHash }

theorem StibExact.sizes {L : Lib} {s : Stib ApplyData} (h : StibExact L s) : StibTyped s := ⟨h.1.sizes, h.2.sizes⟩

theorem decStib_mp {L : Lib} {s : Stib ApplyData} (h : StibExact L s) :
    decStib L (stibMP adCodec s) = if ∀ t ∈ stibTxs s, StxReads L t then some (shiftFlags s) else none := by
  obtain ⟨⟨t, a⟩, g, gh⟩ := s
  have h1 := decStad_arr L (decAd L) t a (∀ t ∈ a.txs, StxReads L t) h.1
      (fun hd => decAdN_mp L a _ h.2 (Nat.le_refl _))
      (fun hd => by rw [isDefault_eq hd]; simp [ApplyData.default, ApplyData.txs, InnerTxs.txs])
  have key : (∀ x ∈ stibTxs ⟨⟨t, a⟩, g, gh⟩, StxReads L x) ↔ (StxReads L t ∧ ∀ x ∈ a.txs, StxReads L x) := by
    simp [stibTxs]
  have e : stadMP adCodec ⟨t, a⟩ = .arr (stxMP t :: (if a.isDefault then [] else [adMP a])) := rfl
  simp only [stibMP, decStib, e, next, h1]
  by_cases c : StxReads L t ∧ ∀ x ∈ a.txs, StxReads L x
  · rw [if_pos c, if_pos (key.2 c)]
    cases g <;> cases gh <;> rfl
  · rw [if_neg c, if_neg (fun hk => c (key.1 hk))]; rfl

theorem decPayset_mp {L : Lib} : ∀ {p : List (Stib ApplyData)}, (∀ s ∈ p, StibExact L s) →
    decPayset L (paysetMP adCodec p) =
      if ∀ t ∈ p.flatMap stibTxs, StxReads L t then some (p.map shiftFlags) else none
  | [], _ => by simp [paysetMP, decPayset, decVec]
  | s :: p, h => by
    have ih := decPayset_mp (p := p) (fun x hx => h x (by simp [hx]))
    have h1 := decStib_mp (h s (by simp))
    simp only [paysetMP, decPayset, decVec, List.map_cons, List.mapM_cons] at ih ⊢
    rw [h1, ih]
    have key : (∀ x ∈ (s :: p).flatMap stibTxs, StxReads L x) ↔
        (∀ x ∈ stibTxs s, StxReads L x) ∧ ∀ x ∈ p.flatMap stibTxs, StxReads L x := by
      rw [List.flatMap_cons]
      simp only [List.mem_append, or_imp, forall_and]
    by_cases c1 : ∀ x ∈ stibTxs s, StxReads L x
    · rw [if_pos c1]
      by_cases c2 : ∀ x ∈ p.flatMap stibTxs, StxReads L x
      · rw [if_pos c2, if_pos (key.2 ⟨c1, c2⟩)]; rfl
      · rw [if_neg c2, if_neg (fun hk => c2 (key.1 hk).2)]; rfl
    · rw [if_neg c1, if_neg (fun hk => c1 (key.1 hk).1)]; rfl

end Verif.Codec
