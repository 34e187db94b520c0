import Verif.Model.Messages
import Verif.Props.KeyFile
import Verif.Lemmas.Base32
import Mathlib.Data.List.TakeWhile
/-!
# C147: what the messages of refusals tell
-/

namespace Verif.Props
open Verif Verif.Tx Verif.Block Verif.Config Verif.Address Verif.Messages

/-! ## Reading a message -/

/-- The constant parts of a message; `none` stands for a value. -/
def shapeOf (t : List Piece) : List (Option Bytes) :=
  t.map fun
    | .lit s => some s
    | .val _ => none

/-- The text does not start with a byte of the kind `P`. -/
def Stops (P : UInt8 → Bool) (s : Bytes) : Prop := ∀ c ∈ s.head?, P c = false

/-- Values consist of bytes of the kind `P`, and what follows a value does not start with one. -/
def Sep (P : UInt8 → Bool) : List Piece → Prop
  | [] => True
  | .lit _ :: t => Sep P t
  | .val s :: t => (∀ c ∈ s, P c = true) ∧ Stops P (render t) ∧ Sep P t

theorem run_split (P : UInt8 → Bool) (a b r s : Bytes) (ha : ∀ c ∈ a, P c = true) (hb : ∀ c ∈ b, P c = true)
    (hr : Stops P r) (hs : Stops P s) (h : a ++ r = b ++ s) : a = b ∧ r = s := by
  induction a generalizing b with
  | nil =>
    cases b with
    | nil => exact ⟨rfl, h⟩
    | cons y b =>
      rw [List.nil_append] at h
      rw [h] at hr
      have := hr y (by simp)
      rw [hb y (by simp)] at this
      cases this
  | cons x a ih =>
    cases b with
    | nil =>
      rw [List.nil_append] at h
      rw [← h] at hs
      have := hs x (by simp)
      rw [ha x (by simp)] at this
      cases this
    | cons y b =>
      rw [List.cons_append, List.cons_append, List.cons.injEq] at h
      obtain ⟨rfl, h⟩ := h
      obtain ⟨h1, h2⟩ := ih b (fun c hc => ha c (by simp [hc])) (fun c hc => hb c (by simp [hc])) h
      exact ⟨by rw [h1], h2⟩

theorem render_cons (p : Piece) (t : List Piece) : render (p :: t) = p.bytes ++ render t := by simp [render]

theorem render_inj (P : UInt8 → Bool) (t u : List Piece) (hshape : shapeOf t = shapeOf u) (ht : Sep P t) (hu : Sep P u)
    (h : render t = render u) : t = u := by
  induction t generalizing u with
  | nil =>
    cases u with
    | nil => rfl
    | cons y u => cases hshape
  | cons x t ih =>
    cases u with
    | nil => cases hshape
    | cons y u =>
      simp only [shapeOf, List.map_cons, List.cons.injEq] at hshape
      rw [render_cons, render_cons] at h
      cases x with
      | lit a =>
        cases y with
        | lit b =>
          simp only [Option.some.injEq] at hshape
          obtain ⟨rfl, hs⟩ := hshape
          rw [ih u hs ht hu (List.append_cancel_left h)]
        | val b => simp at hshape
      | val a =>
        cases y with
        | lit b => simp at hshape
        | val b =>
          obtain ⟨h1, h2⟩ := run_split P a b _ _ ht.1 hu.1 ht.2.1 hu.2.1 h
          rw [h1, ih u hshape.2 ht.2.2 hu.2.2 h2]

/-- Digits and capital letters: the bytes of numbers and hashes. -/
def wordByte (c : UInt8) : Bool := (48 ≤ c.toNat && c.toNat ≤ 57) || (65 ≤ c.toNat && c.toNat ≤ 90)

theorem num_word (n : Nat) : ∀ c ∈ num n, wordByte c = true := by
  intro c hc
  rw [num, asc] at hc
  obtain ⟨x, hx, rfl⟩ := List.mem_map.1 hc
  obtain ⟨d, hd, rfl⟩ := (decimal_chars n).2 x hx
  have : d = 0 ∨ d = 1 ∨ d = 2 ∨ d = 3 ∨ d = 4 ∨ d = 5 ∨ d = 6 ∨ d = 7 ∨ d = 8 ∨ d = 9 := by omega
  rcases this with rfl | rfl | rfl | rfl | rfl | rfl | rfl | rfl | rfl | rfl <;> decide

theorem num_inj {a b : Nat} (h : num a = num b) : a = b := by
  refine decimal_inj ?_
  have key : ∀ s t : List Char, (∀ c ∈ s, ∃ d, d < 10 ∧ c = digitChar d) → (∀ c ∈ t, ∃ d, d < 10 ∧ c = digitChar d) →
      asc s = asc t → s = t := by
    intro s
    induction s with
    | nil => intro t _ _ h; cases t with
      | nil => rfl
      | cons y t => cases h
    | cons x s ih =>
      intro t hs ht h
      cases t with
      | nil => cases h
      | cons y t =>
        simp only [asc, List.map_cons, List.cons.injEq] at h
        rw [ih t (fun c hc => hs c (by simp [hc])) (fun c hc => ht c (by simp [hc])) h.2]
        obtain ⟨d, hd, rfl⟩ := hs x (by simp)
        obtain ⟨e, he, rfl⟩ := ht y (by simp)
        have hde : ∀ d : Fin 10, ∀ e : Fin 10, UInt8.ofNat (digitChar d).toNat = UInt8.ofNat (digitChar e).toNat →
            digitChar d = digitChar e := by decide
        rw [hde ⟨d, hd⟩ ⟨e, he⟩ h.1]
  exact key _ _ (decimal_chars a).2 (decimal_chars b).2 h

theorem symBits_word (s : Bytes) (l : List Bool) (h : Base32.symBits s = some l) : ∀ c ∈ s, wordByte c = true := by
  induction s generalizing l with
  | nil => simp
  | cons x s ih =>
    rw [Base32.symBits] at h
    cases hx : Base32.symVal x with
    | none => simp [hx] at h
    | some v =>
      cases hs : Base32.symBits s with
      | none => simp [hx, hs] at h
      | some l' =>
        intro c hc
        rcases List.mem_cons.1 hc with rfl | hc
        · rw [Base32.symVal] at hx
          simp only [wordByte, Bool.or_eq_true, Bool.and_eq_true, decide_eq_true_eq]
          split at hx
          · right; assumption
          · split at hx
            · left; omega
            · cases hx
        · exact ih l' hs c hc

theorem hashDisplay_word (h : Bytes) : ∀ c ∈ hashDisplay h, wordByte c = true := by
  have hd := Base32.decode_encode h
  rw [Base32.decode] at hd
  cases hb : Base32.symBits (Base32.encode h) with
  | none => simp [hb] at hd
  | some l => exact symBits_word _ l hb

theorem hashDisplay_inj {a b : Bytes} (h : hashDisplay a = hashDisplay b) : a = b := Base32.encode_injective a b h

/-! ## Refused transactions -/

/-- The variant of an error: the error without its values. -/
def txVariant : InvalidTx → InvalidTx
  | .dead _ _ _ => .dead 0 0 0
  | .genesisIdMismatch _ _ => .genesisIdMismatch [] []
  | .genesisHashMismatch _ _ => .genesisHashMismatch [] []
  | .feeLessThanMin _ _ => .feeLessThanMin 0 0
  | .badValidityRange _ _ => .badValidityRange 0 0
  | .excessiveValidityRange _ _ => .excessiveValidityRange 0 0
  | .noteTooBig _ _ => .noteTooBig 0 0
  | .assetNameTooBig _ _ => .assetNameTooBig 0 0
  | .assetUnitNameTooBig _ _ => .assetUnitNameTooBig 0 0
  | .assetUrlTooBig _ _ => .assetUrlTooBig 0 0
  | .assetDecimalsTooHigh _ _ => .assetDecimalsTooHigh 0 0
  | .tooManyAppArgs _ _ => .tooManyAppArgs 0 0
  | .appArgsTotalTooLong _ _ => .appArgsTotalTooLong 0 0
  | .accountsTooLong _ _ => .accountsTooLong 0 0
  | .foreignAppTooLong _ _ => .foreignAppTooLong 0 0
  | .foreignAssetsTooLong _ _ => .foreignAssetsTooLong 0 0
  | .tooManyReferences _ _ => .tooManyReferences 0 0
  | .tooManyExtraProgramPages _ _ => .tooManyExtraProgramPages 0 0
  | .approvalProgramTooLong _ _ => .approvalProgramTooLong 0 0
  | .clearStateProgramTooLong _ _ => .clearStateProgramTooLong 0 0
  | .appProgramsTooLong _ _ => .appProgramsTooLong 0 0
  | .localStateSchemaTooLarge _ _ => .localStateSchemaTooLarge 0 0
  | .globalStateSchemaTooLarge _ _ => .globalStateSchemaTooLarge 0 0
  | e => e

/-- All variants. -/
def txVariants : List InvalidTx :=
  [.dead 0 0 0, .genesisIdMismatch [] [], .genesisHashMismatch [] [], .genesisHashMissing, .genesisHashNotAllowed,
   .assetTxsNotSupported, .appTxsNotSupported, .compactcertTxsNotSupported, .leasesNotSupported, .groupsNotSupported,
   .rekeyingNotSupported, .feeLessThanMin 0 0, .zeroSender, .badValidityRange 0 0, .excessiveValidityRange 0 0,
   .noteTooBig 0 0, .assetNameTooBig 0 0, .assetUnitNameTooBig 0 0, .assetUrlTooBig 0 0, .assetDecimalsTooHigh 0 0,
   .keyregFirstVotingRoundGreaterThanLast, .keyregNonCoherentVotingKeys, .keyregOfflineTransactionHasVotingRounds,
   .keyregUnsupportedSwitchToNonParticipating, .keyregGoingOnlineWithNonParticipating,
   .keyregGoingOnlineWithZeroVoteLast, .keyregGoingOnlineWithFirstVoteAfterLastValid, .changeProgramWithoutUpdate,
   .changeAppStateSchema, .changeExtraProgramPages, .tooManyAppArgs 0 0, .appArgsTotalTooLong 0 0, .accountsTooLong 0 0,
   .foreignAppTooLong 0 0, .foreignAssetsTooLong 0 0, .tooManyReferences 0 0, .tooManyExtraProgramPages 0 0,
   .approvalProgramTooLong 0 0, .clearStateProgramTooLong 0 0, .appProgramsTooLong 0 0, .localStateSchemaTooLarge 0 0,
   .globalStateSchemaTooLarge 0 0, .ccInvalidSender, .ccNonZeroFee, .ccNonEmptyNote, .ccNonZeroGroup, .ccNonZeroRekey,
   .ccNonZeroLease, .cannotCloseToSender, .cannotSpendFromFeeSink, .cannotCloseFeeSink]

/-- The first constant part of a message. -/
def leading : List Piece → Bytes
  | .lit s :: _ => s
  | _ => []

theorem leading_prefix (t : List Piece) : leading t <+: render t := by
  cases t with
  | nil => exact List.prefix_rfl
  | cons p t =>
    cases p with
    | lit s => rw [render_cons]; exact List.prefix_append _ _
    | val s => exact List.nil_prefix

theorem txVariant_mem (e : InvalidTx) : txVariant e ∈ txVariants := by
  cases e <;> simp only [txVariant] <;> decide

theorem txVariant_shape (e : InvalidTx) : shapeOf (txMessage e) = shapeOf (txMessage (txVariant e)) := by
  cases e <;> rfl

theorem txVariant_leading (e : InvalidTx) : leading (txMessage e) = leading (txMessage (txVariant e)) := by
  cases e <;> rfl

/-- The refusals of payments. -/
def PaymentRefusal (e : InvalidTx) : Prop := e = .cannotCloseToSender ∨ e = .cannotSpendFromFeeSink ∨ e = .cannotCloseFeeSink

instance (e : InvalidTx) : Decidable (PaymentRefusal e) := by unfold PaymentRefusal; infer_instance

theorem tx_leading_table : txVariants.all (fun a => txVariants.all (fun b =>
    decide (a = b) || (decide (PaymentRefusal a) && decide (PaymentRefusal b)) ||
    (!(leading (txMessage a)).isPrefixOf (leading (txMessage b)) &&
     !(leading (txMessage b)).isPrefixOf (leading (txMessage a))))) = true := by decide +kernel

/-- Genesis ids without spaces; the other errors have none. -/
def PlainIds : InvalidTx → Prop
  | .genesisIdMismatch a b => 32 ∉ a ∧ 32 ∉ b
  | _ => True

/-- The kind of the bytes of the values of an error. -/
def txKind : InvalidTx → UInt8 → Bool
  | .genesisIdMismatch _ _ => fun c => c != 32
  | _ => wordByte

theorem tx_sep (e : InvalidTx) (h : PlainIds e) : Sep (txKind e) (txMessage e) := by
  have hst : ∀ (P : UInt8 → Bool) (s : Bytes) (t : List Piece) (c : UInt8) (r : Bytes), s = c :: r → P c = false →
      Stops P (render (.lit s :: t)) := by
    intro P s t c r hs hc
    rw [render_cons, hs]
    intro x hx
    simp only [Piece.bytes, List.cons_append, List.head?_cons, Option.mem_some_iff] at hx
    rw [← hx]; exact hc
  have hend : ∀ P, Stops P (render []) := by intro P c hc; cases hc
  cases e with
  | genesisIdMismatch a b =>
    refine ⟨fun c hc => ?_, hst _ _ _ _ _ rfl rfl, fun c hc => ?_, hend _, trivial⟩
    · exact bne_iff_ne.2 (fun hh => h.1 (hh ▸ hc))
    · exact bne_iff_ne.2 (fun hh => h.2 (hh ▸ hc))
  | genesisHashMismatch a b =>
    exact ⟨hashDisplay_word _, hst _ _ _ _ _ rfl rfl, hashDisplay_word _, hend _, trivial⟩
  | dead a b c =>
    exact ⟨num_word _, hst _ _ _ _ _ rfl rfl, num_word _, hst _ _ _ _ _ rfl rfl, num_word _, hend _, trivial⟩
  | _ => first
    | exact trivial
    | exact ⟨num_word _, hst _ _ _ _ _ rfl rfl, num_word _, hend _, trivial⟩
    | exact ⟨num_word _, hst _ _ _ _ _ rfl rfl, num_word _, hst _ _ _ _ _ rfl rfl, trivial⟩

theorem txMessage_values (e e' : InvalidTx) (hv : txVariant e = txVariant e') (ht : txMessage e = txMessage e') :
    e = e' ∨ ∃ g x y, e = .genesisHashMismatch g x ∧ e' = .genesisHashMismatch g y := by
  cases e <;> cases e' <;> first
    | exact Or.inl rfl
    | (cases hv; done)
    | skip
  case genesisHashMismatch.genesisHashMismatch =>
    simp only [txMessage, List.cons.injEq, Piece.val.injEq, true_and, and_true] at ht
    exact Or.inr ⟨_, _, _, rfl, by rw [hashDisplay_inj ht.1]⟩
  case genesisIdMismatch.genesisIdMismatch =>
    simp only [txMessage, List.cons.injEq, Piece.val.injEq, true_and, and_true] at ht
    exact Or.inl (by rw [ht.1, ht.2])
  case dead.dead =>
    simp only [txMessage, List.cons.injEq, Piece.val.injEq, true_and, and_true] at ht
    exact Or.inl (by rw [num_inj ht.1, num_inj ht.2.1, num_inj ht.2.2])
  all_goals
    simp only [txMessage, List.cons.injEq, Piece.val.injEq, true_and, and_true] at ht
    exact Or.inl (by rw [num_inj ht.1, num_inj ht.2])

/-- What holds of C147 for refused transactions: the message, together with its cause, determines the refusal with its
values, for genesis ids without spaces. Missing: the expected genesis hash of a mismatch is not shown. -/
theorem C147_tx_partial (e e' : InvalidTx) (h : PlainIds e) (h' : PlainIds e') (ht : txText e = txText e')
    (hc : txCauseText e = txCauseText e') :
    e = e' ∨ ∃ g x y, e = .genesisHashMismatch g x ∧ e' = .genesisHashMismatch g y := by
  have hv : txVariant e = txVariant e' ∨ PaymentRefusal (txVariant e) ∧ PaymentRefusal (txVariant e') := by
    have hrow := List.all_eq_true.1 (List.all_eq_true.1 tx_leading_table _ (txVariant_mem e)) _ (txVariant_mem e')
    rw [Bool.or_eq_true, Bool.or_eq_true, decide_eq_true_eq, Bool.and_eq_true, decide_eq_true_eq, decide_eq_true_eq,
      Bool.and_eq_true, Bool.not_eq_true', Bool.not_eq_true', ← txVariant_leading, ← txVariant_leading] at hrow
    rcases hrow with (hrow | hrow) | hrow
    · exact Or.inl hrow
    · exact Or.inr hrow
    · have h1 := leading_prefix (txMessage e)
      have h2 := leading_prefix (txMessage e')
      rw [txText, txText] at ht
      rw [ht] at h1
      rcases List.prefix_or_prefix_of_prefix h1 h2 with h3 | h3
      · rw [← List.isPrefixOf_iff_prefix, hrow.1] at h3; cases h3
      · rw [← List.isPrefixOf_iff_prefix, hrow.2] at h3; cases h3
  rcases hv with hv | ⟨hp, hp'⟩
  · refine txMessage_values e e' hv ?_
    have hkind : ∀ a : InvalidTx, txKind a = txKind (txVariant a) := by intro a; cases a <;> rfl
    refine render_inj (txKind e) _ _ ?_ (tx_sep e h) ?_ ht
    · rw [txVariant_shape, hv, ← txVariant_shape]
    · rw [hkind, hv, ← hkind]; exact tx_sep e' h'
  · have hpay : ∀ a : InvalidTx, PaymentRefusal (txVariant a) → PaymentRefusal a := by
      intro a ha
      cases a <;> first
        | exact ha
        | (rcases ha with ha | ha | ha <;> cases ha)
    rcases hpay e hp with rfl | rfl | rfl <;> rcases hpay e' hp' with rfl | rfl | rfl <;> first
      | exact Or.inl rfl
      | exact absurd hc (by decide +kernel)

/-- C147: exactly the refusals of payments have a cause. -/
theorem C147_cause (e : InvalidTx) : (txCauseText e).isSome = true ↔ PaymentRefusal e := by
  cases e <;> simp [txCauseText, txCause, PaymentRefusal]

/-- C147, the sentence for a payment of 999 microalgos when 1000 are needed. -/
example : txText (.feeLessThanMin 999 1000) = asc ['t', 'x', ' ', 'h', 'a', 's', ' ', 'f', 'e', 'e', ' ', 'o', 'f', ' '] ++
    [0xCE, 0xBC] ++ asc ['A', ' ', '9', '9', '9', ' ', 'w', 'h', 'i', 'c', 'h', ' ', 'i', 's', ' ', 'l', 'e', 's', 's', ' ',
      't', 'h', 'a', 'n', ' ', 'm', 'i', 'n', ' ', '('] ++ [0xCE, 0xBC] ++
    asc ['A', ' ', '1', '0', '0', '0', ')'] := by decide +kernel

/-- C147 is false for the genesis hash: the message of a mismatch shows the given hash twice, and never the expected
one. -/
theorem C147_hash_violated (g x y : Bytes) :
    txText (.genesisHashMismatch g x) = txText (.genesisHashMismatch g y) ∧
    txCauseText (.genesisHashMismatch g x) = txCauseText (.genesisHashMismatch g y) := ⟨rfl, rfl⟩

/-- C147 is false for payments: the three refusals have one message. -/
theorem C147_payment_violated : txText .cannotCloseToSender = txText .cannotSpendFromFeeSink ∧
    txText .cannotSpendFromFeeSink = txText .cannotCloseFeeSink := ⟨rfl, rfl⟩

/-- C147 is false for genesis ids with spaces: two mismatches between different ids have one message. -/
theorem C147_ids_violated : ∃ a b c d : Bytes, (a, b) ≠ (c, d) ∧
    txText (.genesisIdMismatch a b) = txText (.genesisIdMismatch c d) := by
  let sep := asc [' ', 'd', 'o', 'e', 's', ' ', 'n', 'o', 't', ' ', 'm', 'a', 't', 'c', 'h', ',', ' ', 'e', 'x', 'p', 'e',
    'c', 't', 'e', 'd', ' ']
  refine ⟨[97], [98] ++ sep ++ [99], [97] ++ sep ++ [98], [99], by decide +kernel, by decide +kernel⟩

/-! ## Refused headers and stored transactions -/

/-- The variant of an error of a block. -/
def blockVariant : InvalidBlock → InvalidBlock
  | .wrongRound _ _ => .wrongRound 0 0
  | .wrongBranch _ _ => .wrongBranch [] []
  | .badEarlyTimestamp _ _ => .badEarlyTimestamp 0 0
  | .badLateTimestamp _ _ _ => .badLateTimestamp 0 0 0
  | .genesisIdMismatch _ _ => .genesisIdMismatch [] []
  | .genesisHashMismatch _ _ => .genesisHashMismatch [] []
  | .delayOutOfRange _ _ _ => .delayOutOfRange 0 0 0
  | .approvalAfterDeadline _ _ => .approvalAfterDeadline 0 0
  | e => e

/-- All variants. -/
def blockVariants : List InvalidBlock :=
  [.wrongRound 0 0, .wrongBranch [] [], .wrongUpgradeState, .badEarlyTimestamp 0 0, .badLateTimestamp 0 0 0,
   .missingGenesisId, .genesisIdMismatch [] [], .missingGenesisHash, .genesisHashMismatch [] [], .genesisHashNotSupported,
   .nonEmptyGenesisId, .nonEmptyGenesisHash, .redundantHasGenesisHash, .competingProposal, .delayOutOfRange 0 0 0,
   .nonZeroDelayWithoutProposal, .approvalNoneActive, .approvalAfterDeadline 0 0]

theorem blockVariant_mem (e : InvalidBlock) : blockVariant e ∈ blockVariants := by
  cases e <;> simp only [blockVariant] <;> decide

theorem blockVariant_shape (e : InvalidBlock) : shapeOf (blockMessage e) = shapeOf (blockMessage (blockVariant e)) := by
  cases e <;> rfl

theorem blockVariant_leading (e : InvalidBlock) : leading (blockMessage e) = leading (blockMessage (blockVariant e)) := by
  cases e <;> rfl

/-- The two refusals of timestamps, whose messages start alike. -/
def TimestampRefusal (e : InvalidBlock) : Prop := e = .badEarlyTimestamp 0 0 ∨ e = .badLateTimestamp 0 0 0

instance (e : InvalidBlock) : Decidable (TimestampRefusal e) := by unfold TimestampRefusal; infer_instance

theorem block_leading_table : blockVariants.all (fun a => blockVariants.all (fun b =>
    decide (a = b) || (decide (TimestampRefusal a) && decide (TimestampRefusal b)) ||
    (!(leading (blockMessage a)).isPrefixOf (leading (blockMessage b)) &&
     !(leading (blockMessage b)).isPrefixOf (leading (blockMessage a))))) = true := by decide +kernel

/-- Genesis ids without commas; the other errors have none. -/
def PlainBlockIds : InvalidBlock → Prop
  | .genesisIdMismatch a b => 44 ∉ a ∧ 44 ∉ b
  | _ => True

/-- The kind of the bytes of the values of an error. -/
def blockKind : InvalidBlock → UInt8 → Bool
  | .genesisIdMismatch _ _ => fun c => c != 44
  | _ => wordByte

theorem stops_lit (P : UInt8 → Bool) (s : Bytes) (t : List Piece) (c : UInt8) (r : Bytes) (hs : s = c :: r)
    (hc : P c = false) : Stops P (render (.lit s :: t)) := by
  rw [render_cons, hs]
  intro x hx
  simp only [Piece.bytes, List.cons_append, List.head?_cons, Option.mem_some_iff] at hx
  rw [← hx]; exact hc

theorem stops_end (P : UInt8 → Bool) : Stops P (render []) := by intro c hc; cases hc

theorem block_sep (e : InvalidBlock) (h : PlainBlockIds e) : Sep (blockKind e) (blockMessage e) := by
  cases e with
  | genesisIdMismatch a b =>
    refine ⟨fun c hc => ?_, stops_lit _ _ _ _ _ rfl rfl, fun c hc => ?_, stops_end _, trivial⟩
    · exact bne_iff_ne.2 (fun hh => h.1 (hh ▸ hc))
    · exact bne_iff_ne.2 (fun hh => h.2 (hh ▸ hc))
  | genesisHashMismatch a b =>
    exact ⟨hashDisplay_word _, stops_lit _ _ _ _ _ rfl rfl, hashDisplay_word _, stops_end _, trivial⟩
  | wrongBranch a b =>
    exact ⟨hashDisplay_word _, stops_lit _ _ _ _ _ rfl rfl, hashDisplay_word _, stops_end _, trivial⟩
  | badLateTimestamp a b c =>
    exact ⟨num_word _, stops_lit _ _ _ _ _ rfl rfl, num_word _, stops_lit _ _ _ _ _ rfl rfl, num_word _, stops_end _, trivial⟩
  | delayOutOfRange a b c =>
    exact ⟨num_word _, stops_lit _ _ _ _ _ rfl rfl, num_word _, stops_lit _ _ _ _ _ rfl rfl, num_word _,
      stops_lit _ _ _ _ _ rfl rfl, trivial⟩
  | wrongRound a b => exact ⟨num_word _, stops_lit _ _ _ _ _ rfl rfl, num_word _, stops_end _, trivial⟩
  | badEarlyTimestamp a b => exact ⟨num_word _, stops_lit _ _ _ _ _ rfl rfl, num_word _, stops_end _, trivial⟩
  | _ => exact trivial

theorem blockMessage_values (e e' : InvalidBlock) (hv : blockVariant e = blockVariant e')
    (ht : blockMessage e = blockMessage e') :
    e = e' ∨ ∃ a b c d, e = .approvalAfterDeadline a b ∧ e' = .approvalAfterDeadline c d := by
  cases e <;> cases e' <;> first
    | exact Or.inl rfl
    | (cases hv; done)
    | skip
  case approvalAfterDeadline.approvalAfterDeadline => exact Or.inr ⟨_, _, _, _, rfl, rfl⟩
  all_goals
    simp only [blockMessage, List.cons.injEq, Piece.val.injEq, true_and, and_true] at ht
    first
    | exact Or.inl (by rw [num_inj ht.1, num_inj ht.2])
    | exact Or.inl (by rw [num_inj ht.1, num_inj ht.2.1, num_inj ht.2.2])
    | exact Or.inl (by rw [hashDisplay_inj ht.1, hashDisplay_inj ht.2])
    | exact Or.inl (by rw [ht.1, ht.2])

/-- What holds of C147 for blocks: the message determines the refusal with its values, for genesis ids without commas.
Missing: the values of an approval after the deadline are not shown. -/
theorem C147_block_partial (e e' : InvalidBlock) (h : PlainBlockIds e) (h' : PlainBlockIds e')
    (ht : blockText e = blockText e') :
    e = e' ∨ ∃ a b c d, e = .approvalAfterDeadline a b ∧ e' = .approvalAfterDeadline c d := by
  have hv : blockVariant e = blockVariant e' ∨ TimestampRefusal (blockVariant e) ∧ TimestampRefusal (blockVariant e') := by
    have hrow := List.all_eq_true.1 (List.all_eq_true.1 block_leading_table _ (blockVariant_mem e)) _ (blockVariant_mem e')
    rw [Bool.or_eq_true, Bool.or_eq_true, decide_eq_true_eq, Bool.and_eq_true, decide_eq_true_eq, decide_eq_true_eq,
      Bool.and_eq_true, Bool.not_eq_true', Bool.not_eq_true', ← blockVariant_leading, ← blockVariant_leading] at hrow
    rcases hrow with (hrow | hrow) | hrow
    · exact Or.inl hrow
    · exact Or.inr hrow
    · have h1 := leading_prefix (blockMessage e)
      have h2 := leading_prefix (blockMessage e')
      rw [blockText, blockText] at ht
      rw [ht] at h1
      rcases List.prefix_or_prefix_of_prefix h1 h2 with h3 | h3
      · rw [← List.isPrefixOf_iff_prefix, hrow.1] at h3; cases h3
      · rw [← List.isPrefixOf_iff_prefix, hrow.2] at h3; cases h3
  have hsame : blockVariant e = blockVariant e' := by
    rcases hv with hv | ⟨hp, hp'⟩
    · exact hv
    · have hts : ∀ a : InvalidBlock, TimestampRefusal (blockVariant a) →
          (∃ x y, a = .badEarlyTimestamp x y) ∨ (∃ x y z, a = .badLateTimestamp x y z) := by
        intro a ha
        cases a <;> first
          | exact Or.inl ⟨_, _, rfl⟩
          | exact Or.inr ⟨_, _, _, rfl⟩
          | (rcases ha with ha | ha <;> cases ha)
      have hne : ∀ x y a b c, blockText (.badEarlyTimestamp x y) ≠ blockText (.badLateTimestamp a b c) := by
        intro x y a b c hh
        simp only [blockText, blockMessage, render_cons, Piece.bytes] at hh
        have hsp : ∀ r : Bytes, Stops wordByte (32 :: r) := by
          intro r c hc
          cases hc
          rfl
        have h2 := (run_split wordByte _ _ _ _ (num_word _) (num_word _) (hsp _) (hsp _) (List.append_cancel_left hh)).2
        have h3 := congrArg (fun l : Bytes => l[1]?) h2
        exact absurd h3 (by simp [asc])
      rcases hts e hp with ⟨x, y, rfl⟩ | ⟨x, y, z, rfl⟩ <;> rcases hts e' hp' with ⟨a, b, rfl⟩ | ⟨a, b, c, rfl⟩
      · rfl
      · exact absurd ht (hne _ _ _ _ _)
      · exact absurd ht.symm (hne _ _ _ _ _)
      · rfl
  refine blockMessage_values e e' hsame ?_
  have hkind : ∀ a : InvalidBlock, blockKind a = blockKind (blockVariant a) := by intro a; cases a <;> rfl
  refine render_inj (blockKind e) _ _ ?_ (block_sep e h) ?_ ht
  · rw [blockVariant_shape, hsame, ← blockVariant_shape]
  · rw [hkind, hsame, ← hkind]; exact block_sep e' h'

example : blockText (.badEarlyTimestamp 5 10) = asc ['b', 'a', 'd', ' ', 't', 'i', 'm', 'e', 's', 't', 'a', 'm', 'p', ':', ' ',
    'c', 'u', 'r', 'r', 'e', 'n', 't', ' ', '5', ' ', '<', ' ', 'p', 'r', 'e', 'v', 'i', 'o', 'u', 's', ' ', '1', '0'] := by
  decide +kernel

/-- C147 is false for late approvals: neither the round nor the deadline is shown. -/
theorem C147_deadline_violated (a b c d : Nat) :
    blockText (.approvalAfterDeadline a b) = blockText (.approvalAfterDeadline c d) := rfl

/-- A case of `C147_tx_partial`. -/
example : txText (.feeLessThanMin 999 1000) ≠ txText (.feeLessThanMin 99 91000) := fun h => by
  rcases C147_tx_partial (.feeLessThanMin 999 1000) (.feeLessThanMin 99 91000) trivial trivial h rfl with h | ⟨_, _, _, h, _⟩ <;> simp at h

end Verif.Props
