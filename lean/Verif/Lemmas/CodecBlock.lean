import Verif.Lemmas.CodecFits
/-!
# Encodings of apply data, transactions in blocks, paysets, headers and groups determine the values
-/

namespace Verif.Codec
open Verif Verif.Msgpack Verif.Tx Verif.Block Verif.HashId Verif.Multisig Verif.Consensus

theorem bytesArr_inj {a b : Bytes} (h : bytesArr a = bytesArr b) : a = b := by
  have h1 := decBytes_bytesArr a
  rw [h, decBytes_bytesArr b] at h1
  exact (Option.some.inj h1).symm

theorem map_inj {α : Type} {f : α → MP} {p : α → Prop} (hf : ∀ a b, p a → p b → f a = f b → a = b) :
    ∀ {l m : List α}, (∀ a ∈ l, p a) → (∀ a ∈ m, p a) → l.map f = m.map f → l = m
  | [], [], _, _, _ => rfl
  | [], _ :: _, _, _, h => by simp at h
  | _ :: _, [], _, _, h => by simp at h
  | a :: l, b :: m, hl, hm, h => by
    simp only [List.map_cons, List.cons.injEq] at h
    rw [hf a b (hl a (by simp)) (hm b (by simp)) h.1,
      map_inj hf (fun x hx => hl x (by simp [hx])) (fun x hx => hm x (by simp [hx])) h.2]

/-! ## Apply data -/

/-- A value delta of its Rust type. -/
def DeltaTyped (e : Bytes × Teal.ValueDelta) : Prop := e.1.length < u32Lim ∧ e.2.bytes.length < u32Lim ∧ e.2.uint < u64Lim

/-- A state delta of its Rust type. -/
def StateDeltaTyped (l : List (Bytes × Teal.ValueDelta)) : Prop := l.length < u32Lim ∧ ∀ e ∈ l, DeltaTyped e

/-- The sizes of the fields of apply data are those of their Rust types. -/
structure AdFlatTyped (f : AdFlat) : Prop where
  closingAmount : f.closingAmount < u64Lim
  assetClosingAmount : f.assetClosingAmount < u64Lim
  senderRewards : f.senderRewards < u64Lim
  receiverRewards : f.receiverRewards < u64Lim
  closeRewards : f.closeRewards < u64Lim
  globalDelta : StateDeltaTyped f.globalDelta
  localDeltas : f.localDeltas.length < u32Lim ∧ ∀ e ∈ f.localDeltas, e.1 < u64Lim ∧ StateDeltaTyped e.2
  logs : f.logs.length < u32Lim ∧ ∀ s ∈ f.logs, s.length < u32Lim
  configAsset : f.configAsset < u64Lim
  applicationId : f.applicationId < u64Lim

/-- The number of inner transactions. -/
def InnerTxs.length : InnerTxs → Nat
  | .nil => 0
  | .cons _ _ r => r.length + 1

mutual
/-- Apply data of its Rust type. -/
def ApplyData.Typed : ApplyData → Prop
  | .mk f i => AdFlatTyped f ∧ i.length < u32Lim ∧ i.Typed
/-- Inner transactions of their Rust type. -/
def InnerTxs.Typed : InnerTxs → Prop
  | .nil => True
  | .cons t a r => StxTyped sizesOnly t ∧ a.Typed ∧ r.Typed
end

theorem actionName_inj {a b : Teal.DeltaAction} (h : asciiBytes (actionName a) = asciiBytes (actionName b)) : a = b := by
  cases a <;> cases b <;> first | rfl | exact absurd h (by decide)

theorem valueDeltaMP_inj {a b : Teal.ValueDelta} (h : valueDeltaMP a = valueDeltaMP b) : a = b := by
  obtain ⟨a1, a2, a3⟩ := a
  obtain ⟨b1, b2, b3⟩ := b
  simp only [valueDeltaMP, strLit, MP.arr.injEq, List.cons.injEq, MP.str.injEq, MP.uint.injEq, and_true] at h
  rw [actionName_inj h.1, bytesArr_inj h.2.1, h.2.2]

theorem pairs_inj {α β : Type} {f : α → MP} {g : β → MP} (hf : ∀ a b, f a = f b → a = b) (hg : ∀ a b, g a = g b → a = b) :
    ∀ {l m : List (α × β)}, (l.flatMap fun e => [f e.1, g e.2]) = (m.flatMap fun e => [f e.1, g e.2]) → l = m
  | [], [], _ => rfl
  | [], _ :: _, h => by simp at h
  | _ :: _, [], h => by simp at h
  | (a, a') :: l, (b, b') :: m, h => by
    simp only [List.flatMap_cons, List.cons_append, List.nil_append, List.cons.injEq] at h
    rw [hf a b h.1, hg a' b' h.2.1, pairs_inj hf hg h.2.2]

theorem stateDeltaMP_inj (a b : List (Bytes × Teal.ValueDelta)) (h : stateDeltaMP a = stateDeltaMP b) : a = b :=
  pairs_inj (f := .str) (fun _ _ h => MP.str.inj h) (fun _ _ => valueDeltaMP_inj) (MP.map.inj h)

theorem localDeltasMP_inj (a b : List (Nat × List (Bytes × Teal.ValueDelta))) (h : localDeltasMP a = localDeltasMP b) : a = b :=
  pairs_inj (f := .uint) (fun _ _ h => MP.uint.inj h) stateDeltaMP_inj (MP.map.inj h)

theorem adWith_inj {f g : AdFlat} {i j : List MP} (h : adWith f i = adWith g j) : f = g ∧ i = j := by
  obtain ⟨a1, a2, a3, a4, a5, a6, a7, a8, a9, a10⟩ := f
  obtain ⟨b1, b2, b3, b4, b5, b6, b7, b8, b9, b10⟩ := g
  simp only [adWith, MP.arr.injEq, List.cons.injEq, MP.uint.injEq, and_true] at h
  obtain ⟨rfl, rfl, rfl, rfl, rfl, ⟨h6, h7, h8, h9⟩, rfl, rfl⟩ := h
  rw [stateDeltaMP_inj _ _ h6, localDeltasMP_inj _ _ h7,
    map_inj (p := fun _ => True) (fun _ _ _ _ h => MP.str.inj h) (fun _ _ => trivial) (fun _ _ => trivial) h8]
  exact ⟨rfl, h9⟩

theorem isDefault_eq {a : ApplyData} (h : a.isDefault = true) : a = .default := by
  match a with
  | .mk f .nil => simp only [ApplyData.isDefault, decide_eq_true_eq] at h; rw [h]; rfl
  | .mk f (.cons _ _ _) => simp [ApplyData.isDefault] at h

mutual
theorem adMP_inj : ∀ {a b : ApplyData}, a.Typed → b.Typed → adMP a = adMP b → a = b
  | .mk f i, .mk g j, ha, hb, h => by
    rw [adMP, adMP] at h
    obtain ⟨rfl, hij⟩ := adWith_inj h
    rw [ApplyData.Typed] at ha hb
    rw [innerMP_inj ha.2.2 hb.2.2 hij]
theorem innerMP_inj : ∀ {a b : InnerTxs}, a.Typed → b.Typed → innerMP a = innerMP b → a = b
  | .nil, .nil, _, _, _ => rfl
  | .nil, .cons _ _ _, _, _, h => by simp [innerMP] at h
  | .cons _ _ _, .nil, _, _, h => by simp [innerMP] at h
  | .cons t a r, .cons t' a' r', ha, hb, h => by
    rw [innerMP, innerMP] at h
    simp only [List.cons.injEq, MP.arr.injEq] at h
    obtain ⟨⟨h1, h2⟩, h3⟩ := h
    rw [InnerTxs.Typed] at ha hb
    rw [stxMP_inj ha.1 hb.1 h1, innerMP_inj ha.2.2 hb.2.2 h3]
    by_cases hd : a.isDefault = true <;> by_cases hd' : a'.isDefault = true
    · rw [isDefault_eq hd, isDefault_eq hd']
    · simp [hd, hd'] at h2
    · simp [hd, hd'] at h2
    · simp only [hd, hd', Bool.false_eq_true, if_false, List.cons.injEq, and_true] at h2
      rw [adMP_inj ha.2.1 hb.2.1 h2]
end

theorem fits_valueDelta {d : Teal.ValueDelta} (h1 : d.bytes.length < u32Lim) (h2 : d.uint < u64Lim) : (valueDeltaMP d).Fits := by
  refine fits_arr (by simp [u32Lim]) ?_
  simp only [List.mem_cons, List.not_mem_nil, or_false]
  rintro a (rfl | rfl | rfl)
  · exact fits_strLit (by cases d.action <;> decide)
  · exact fits_bytesArr h1
  · exact fits_uint h2

theorem pairs_length {α : Type} (f g : α → MP) (l : List α) : (l.flatMap fun e => [f e, g e]).length = 2 * l.length := by
  induction l with
  | nil => rfl
  | cons a l ih => simp only [List.flatMap_cons, List.length_append, ih, List.length_cons, List.length_nil]; omega

theorem fits_pairs {α : Type} {f g : α → MP} {l : List α} (hl : l.length < u32Lim) (hf : ∀ e ∈ l, (f e).Fits ∧ (g e).Fits) :
    (MP.map (l.flatMap fun e => [f e, g e])).Fits := by
  rw [MP.Fits, pairs_length]
  refine ⟨by omega, by rw [Nat.mul_div_cancel_left _ (by decide)]; simpa using hl, (fitsList_iff _).2 ?_⟩
  intro a ha
  simp only [List.mem_flatMap, List.mem_cons, List.not_mem_nil, or_false] at ha
  obtain ⟨e, he, rfl | rfl⟩ := ha
  · exact (hf e he).1
  · exact (hf e he).2

theorem fits_stateDelta {l : List (Bytes × Teal.ValueDelta)} (h : StateDeltaTyped l) : (stateDeltaMP l).Fits :=
  fits_pairs h.1 fun e he => ⟨fits_str (h.2 e he).1, fits_valueDelta (h.2 e he).2.1 (h.2 e he).2.2⟩

theorem innerMP_length : ∀ i : InnerTxs, (innerMP i).length = i.length
  | .nil => rfl
  | .cons _ _ r => by rw [innerMP, List.length_cons, innerMP_length r]; rfl

theorem fits_adWith {f : AdFlat} {l : List MP} (hf : AdFlatTyped f) (hl : l.length < u32Lim) (hi : ∀ a ∈ l, a.Fits) :
    (adWith f l).Fits := by
  refine fits_arr (by simp [u32Lim]) ?_
  simp only [List.mem_cons, List.not_mem_nil, or_false]
  rintro a (rfl | rfl | rfl | rfl | rfl | rfl | rfl | rfl)
  · exact fits_uint hf.closingAmount
  · exact fits_uint hf.assetClosingAmount
  · exact fits_uint hf.senderRewards
  · exact fits_uint hf.receiverRewards
  · exact fits_uint hf.closeRewards
  · refine fits_arr (by simp [u32Lim]) ?_
    simp only [List.mem_cons, List.not_mem_nil, or_false]
    rintro a (rfl | rfl | rfl | rfl)
    · exact fits_stateDelta hf.globalDelta
    · exact fits_pairs hf.localDeltas.1 fun e he => ⟨fits_uint (hf.localDeltas.2 e he).1, fits_stateDelta (hf.localDeltas.2 e he).2⟩
    · exact fits_arr_map hf.logs.1 fun s hs => fits_str (hf.logs.2 s hs)
    · exact fits_arr hl hi
  · exact fits_uint hf.configAsset
  · exact fits_uint hf.applicationId

mutual
theorem fits_ad : ∀ {a : ApplyData}, a.Typed → (adMP a).Fits
  | .mk f i, h => by
    rw [ApplyData.Typed] at h
    rw [adMP]
    exact fits_adWith h.1 (by rw [innerMP_length]; exact h.2.1) (fits_inner h.2.2)
theorem fits_inner : ∀ {i : InnerTxs}, i.Typed → ∀ a ∈ innerMP i, a.Fits
  | .nil, _, a, ha => by simp [innerMP] at ha
  | .cons t d r, h, a, ha => by
    rw [InnerTxs.Typed] at h
    rw [innerMP, List.mem_cons] at ha
    rcases ha with rfl | ha
    · refine fits_arr (by split <;> simp [u32Lim]) ?_
      intro x hx
      rw [List.mem_cons] at hx
      rcases hx with rfl | hx
      · exact fits_stx h.1
      · split at hx
        · simp at hx
        · rw [List.mem_singleton.1 hx]; exact fits_ad h.2.1
    · exact fits_inner h.2.2 a ha
end

/-! ## Transactions in blocks -/

/-- A transaction in a block, of its Rust type. -/
def StibTyped (s : Stib ApplyData) : Prop := StxTyped sizesOnly s.tx.tx ∧ s.tx.ad.Typed

theorem stadMP_inj {a b : Stad ApplyData} (ha : StxTyped sizesOnly a.tx ∧ a.ad.Typed) (hb : StxTyped sizesOnly b.tx ∧ b.ad.Typed)
    (h : stadMP adCodec a = stadMP adCodec b) : a = b := by
  obtain ⟨t, a⟩ := a
  obtain ⟨t', a'⟩ := b
  have h : innerMP (.cons t a .nil) = innerMP (.cons t' a' .nil) := by
    rw [innerMP, innerMP]
    exact congrArg (· :: innerMP .nil) h
  have := innerMP_inj (a := .cons t a .nil) (b := .cons t' a' .nil) (by rw [InnerTxs.Typed, InnerTxs.Typed]; exact ⟨ha.1, ha.2, trivial⟩)
    (by rw [InnerTxs.Typed, InnerTxs.Typed]; exact ⟨hb.1, hb.2, trivial⟩) h
  cases this; rfl

/-- The number of genesis flags that are set. -/
def flagCount {AD : Type} (s : Stib AD) : Nat := (if s.hasGenesisId then 1 else 0) + (if s.hasGenesisHash then 1 else 0)

theorem stibMP_eq_iff {a b : Stib ApplyData} (ha : StibTyped a) (hb : StibTyped b) :
    stibMP adCodec a = stibMP adCodec b ↔ a.tx = b.tx ∧ flagCount a = flagCount b := by
  obtain ⟨t, x, y⟩ := a
  obtain ⟨t', x', y'⟩ := b
  constructor
  · intro h
    simp only [stibMP, MP.arr.injEq, List.cons.injEq] at h
    refine ⟨stadMP_inj ha hb h.1, ?_⟩
    have := congrArg List.length h.2
    cases x <;> cases y <;> cases x' <;> cases y' <;> simp_all [flagCount]
  · rintro ⟨h1, h2⟩
    simp only at h1
    subst h1
    simp only [stibMP]
    cases x <;> cases y <;> cases x' <;> cases y' <;> simp_all [flagCount]

theorem fits_stib {s : Stib ApplyData} (h : StibTyped s) : (stibMP adCodec s).Fits := by
  obtain ⟨⟨t, d⟩, x, y⟩ := s
  refine fits_arr (by (repeat' split) <;> simp [u32Lim]) ?_
  intro a ha
  simp only [List.mem_cons, List.mem_append] at ha
  rcases ha with rfl | ha | ha
  · have := fits_inner (i := .cons t d .nil) (by rw [InnerTxs.Typed, InnerTxs.Typed]; exact ⟨h.1, h.2, trivial⟩)
    rw [innerMP] at this
    exact this _ (by simp only [List.mem_cons]; exact Or.inl rfl)
  · split at ha
    · rw [List.mem_singleton.1 ha]; exact fits_bool _
    · simp at ha
  · split at ha
    · rw [List.mem_singleton.1 ha]; exact fits_bool _
    · simp at ha

/-- A payset of its Rust type. -/
def PaysetTyped (p : List (Stib ApplyData)) : Prop := p.length < u32Lim ∧ ∀ s ∈ p, StibTyped s

theorem fits_payset {p : List (Stib ApplyData)} (h : PaysetTyped p) : (paysetMP adCodec p).Fits :=
  fits_arr_map h.1 fun s hs => fits_stib (h.2 s hs)

theorem paysetMP_eq_iff : ∀ {a b : List (Stib ApplyData)}, (∀ s ∈ a, StibTyped s) → (∀ s ∈ b, StibTyped s) →
    (paysetMP adCodec a = paysetMP adCodec b ↔
      a.map (fun s => (s.tx, flagCount s)) = b.map (fun s => (s.tx, flagCount s)))
  | [], [], _, _ => by simp
  | [], _ :: _, _, _ => by simp [paysetMP]
  | _ :: _, [], _, _ => by simp [paysetMP]
  | x :: a, y :: b, ha, hb => by
    have ih := paysetMP_eq_iff (fun s hs => ha s (List.mem_cons_of_mem _ hs)) (fun s hs => hb s (List.mem_cons_of_mem _ hs))
      (a := a) (b := b)
    have hxy := stibMP_eq_iff (ha x (by simp)) (hb y (by simp))
    simp only [paysetMP, MP.arr.injEq, List.map_cons, List.cons.injEq, Prod.mk.injEq] at ih ⊢
    rw [ih, hxy]

/-! ## Headers, groups, one-time key identifiers -/

theorem versionName_inj {a b : Version} (h : asciiBytes (versionName a) = asciiBytes (versionName b)) : a = b := by
  have key : ((Version.all).map fun v => asciiBytes (versionName v)).Nodup := by decide +kernel
  have hall : ∀ v : Version, v ∈ Version.all := by intro v; cases v <;> decide
  exact List.inj_on_of_nodup_map key (hall a) (hall b) h

/-- A header of its Rust type. -/
structure HeaderBodyTyped (h : HeaderBody) : Prop where
  round : h.round < u64Lim
  branch : h.branch.length = 32
  seed : h.seed.length = 32
  txRoot : h.txRoot.length = 32
  timestamp : h.timestamp < u64Lim
  genesisId : h.genesisId.length < u32Lim
  genesisHash : h.genesisHash.length = 32
  feeSink : h.rewards.feeSink.length = 32
  rewardsPool : h.rewards.rewardsPool.length = 32
  level : h.rewards.level < u64Lim
  rate : h.rewards.rate < u64Lim
  residue : h.rewards.residue < u64Lim
  recalculationRound : h.rewards.recalculationRound < u64Lim
  delay : h.upgradeVote.delay < u64Lim
  txCounter : h.txCounter < u64Lim
  certs : ∀ c, h.compactCerts = some c → c.voters.length = 32 ∧ c.votersTotal < u64Lim ∧ c.nextRound < u64Lim

theorem certStateMP_inj {a b : CertState} (h : certStateMP a = certStateMP b) : a = b := by
  obtain ⟨a1, a2, a3⟩ := a
  obtain ⟨b1, b2, b3⟩ := b
  simp only [certStateMP, MP.arr.injEq, List.cons.injEq, MP.uint.injEq, and_true] at h
  rw [bytesArr_inj h.1, h.2.1, h.2.2]

theorem certsMP_inj {a b : Option CertState} (h : certsMP a = certsMP b) : a = b := by
  cases a <;> cases b
  · rfl
  · simp [certsMP] at h
  · simp [certsMP] at h
  · simp only [certsMP, MP.map.injEq, List.cons.injEq, and_true, true_and] at h
    rw [certStateMP_inj h]

theorem headerMP_inj {a b : HeaderBody} (h : headerMP a = headerMP b) : a = b := by
  obtain ⟨a1, a2, a3, a4, a5, a6, a7, ⟨r1, r2, r3, r4, r5, r6⟩, ⟨v1, v2, v3⟩, a10, a11⟩ := a
  obtain ⟨b1, b2, b3, b4, b5, b6, b7, ⟨s1, s2, s3, s4, s5, s6⟩, ⟨w1, w2, w3⟩, b10, b11⟩ := b
  simp only [headerMP, rewardsMP, upgradeVoteMP, strLit, MP.arr.injEq, List.cons.injEq, MP.uint.injEq, MP.str.injEq,
    MP.bin.injEq, MP.bool.injEq, and_true] at h
  obtain ⟨rfl, h2, h3, h4, rfl, rfl, h7, ⟨rfl, rfl, rfl, rfl, rfl, rfl⟩, ⟨hv, rfl, rfl⟩, rfl, hc⟩ := h
  rw [bytesArr_inj h2, bytesArr_inj h3, bytesArr_inj h4, bytesArr_inj h7, versionName_inj hv, certsMP_inj hc]

theorem fits_header {h : HeaderBody} (t : HeaderBodyTyped h) : (headerMP h).Fits := by
  refine fits_arr (by simp [u32Lim]) ?_
  simp only [List.mem_cons, List.not_mem_nil, or_false]
  rintro a (rfl | rfl | rfl | rfl | rfl | rfl | rfl | rfl | rfl | rfl | rfl)
  · exact fits_uint t.round
  · exact fits_bytesArr (l32 t.branch)
  · exact fits_bytesArr (l32 t.seed)
  · exact fits_bytesArr (l32 t.txRoot)
  · exact fits_uint t.timestamp
  · exact fits_str t.genesisId
  · exact fits_bytesArr (l32 t.genesisHash)
  · refine fits_arr (by simp [u32Lim]) ?_
    simp only [List.mem_cons, List.not_mem_nil, or_false]
    rintro a (rfl | rfl | rfl | rfl | rfl | rfl)
    · exact fits_bin (l32 t.feeSink)
    · exact fits_bin (l32 t.rewardsPool)
    · exact fits_uint t.level
    · exact fits_uint t.rate
    · exact fits_uint t.residue
    · exact fits_uint t.recalculationRound
  · refine fits_arr (by simp [u32Lim]) ?_
    simp only [List.mem_cons, List.not_mem_nil, or_false]
    rintro a (rfl | rfl | rfl)
    · exact fits_strLit (by cases h.upgradeVote.propose <;> simp [versionName, u32Lim])
    · exact fits_uint t.delay
    · exact fits_bool _
  · exact fits_uint t.txCounter
  · cases hc : h.compactCerts with
    | none => rw [certsMP, MP.Fits]; simp [FitsList]
    | some c =>
      obtain ⟨c1, c2, c3⟩ := t.certs c hc
      rw [certsMP, MP.Fits]
      refine ⟨by simp, by simp, (fitsList_iff _).2 ?_⟩
      simp only [List.mem_cons, List.not_mem_nil, or_false]
      rintro a (rfl | rfl)
      · exact fits_strLit (by simp [basicName, u32Lim])
      · refine fits_arr (by simp [u32Lim]) ?_
        simp only [List.mem_cons, List.not_mem_nil, or_false]
        rintro a (rfl | rfl | rfl)
        · exact fits_bytesArr (l32 c1)
        · exact fits_uint c2
        · exact fits_uint c3

theorem txGroupMP_inj {a b : List Bytes} (h : txGroupMP a = txGroupMP b) : a = b := by
  simp only [txGroupMP, MP.arr.injEq, List.cons.injEq, and_true] at h
  exact map_inj (p := fun _ => True) (fun _ _ _ _ h => bytesArr_inj h) (fun _ _ => trivial) (fun _ _ => trivial) h

theorem fits_txGroup {l : List Bytes} (h : l.length < u32Lim) (hl : ∀ x ∈ l, x.length = 32) : (txGroupMP l).Fits := by
  refine fits_arr (by simp [u32Lim]) ?_
  simp only [List.mem_cons, List.not_mem_nil, or_false]
  rintro a rfl
  exact fits_arr_map h fun x hx => fits_bytesArr (l32 (hl x hx))

theorem fits_stxVec {l : List SignedTx} (h : l.length < u32Lim) (hl : ∀ x ∈ l, StxTyped sizesOnly x) : (stxVecMP l).Fits :=
  fits_arr_map h fun x hx => fits_stx (hl x hx)

theorem stxVecMP_inj {a b : List SignedTx} (ha : ∀ x ∈ a, StxTyped sizesOnly x) (hb : ∀ x ∈ b, StxTyped sizesOnly x)
    (h : stxVecMP a = stxVecMP b) : a = b :=
  map_inj (p := StxTyped sizesOnly) (fun _ _ h1 h2 h => stxMP_inj h1 h2 h) ha hb (MP.arr.inj h)

/-- The encoding of a signed transaction is an array that holds a map. -/
theorem stx_has_map (s : SignedTx) : ∃ l, stxMP s = .arr l ∧ txMP s.tx ∈ l := ⟨_, rfl, by simp⟩

theorem group_ne_vec (g : List Bytes) (l : List SignedTx) : txGroupMP g ≠ stxVecMP l := by
  intro h
  simp only [txGroupMP, stxVecMP, MP.arr.injEq] at h
  cases l with
  | nil => simp at h
  | cons s l =>
    simp only [List.map_cons, List.cons.injEq] at h
    obtain ⟨l', e, hm⟩ := stx_has_map s
    rw [e, MP.arr.injEq] at h
    rw [← h.1, List.mem_map] at hm
    obtain ⟨x, _, hx⟩ := hm
    simp [bytesArr, txMP] at hx

theorem batchIdMP_inj {p q : Bytes} {b c : Nat} (h : batchIdMP p b = batchIdMP q c) : p = q ∧ b = c := by
  simpa [batchIdMP] using h

theorem offsetIdMP_inj {p q : Bytes} {b c o r : Nat} (h : offsetIdMP p b o = offsetIdMP q c r) : p = q ∧ b = c ∧ o = r := by
  simpa [offsetIdMP] using h

theorem fits_batchId {p : Bytes} {b : Nat} (hp : p.length = 32) (hb : b < u64Lim) : (batchIdMP p b).Fits := by
  refine fits_arr (by simp [u32Lim]) ?_
  simp only [List.mem_cons, List.not_mem_nil, or_false]
  rintro a (rfl | rfl)
  · exact fits_bin (l32 hp)
  · exact fits_uint hb

theorem fits_offsetId {p : Bytes} {b o : Nat} (hp : p.length = 32) (hb : b < u64Lim) (ho : o < u64Lim) : (offsetIdMP p b o).Fits := by
  refine fits_arr (by simp [u32Lim]) ?_
  simp only [List.mem_cons, List.not_mem_nil, or_false]
  rintro a (rfl | rfl | rfl)
  · exact fits_bin (l32 hp)
  · exact fits_uint hb
  · exact fits_uint ho

end Verif.Codec
