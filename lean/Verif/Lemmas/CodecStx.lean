import Verif.Lemmas.CodecFits
/-!
# What the derived reader makes of the encoding of a signed transaction
-/

namespace Verif.Codec
open Verif Verif.Msgpack Verif.Tx Verif.Block Verif.HashId Verif.Multisig

theorem decTx_eq {L : Lib} {t : Transaction} (ht : TxTyped L t) :
    decTx L (txMP t) = if txAddrs t = [] then some t else none := by
  rw [decTx, decTxWith_eq L decAddr t ht (fun a => Or.inl (decAddr_bin a))]
  cases h : txAddrs t with
  | nil => simp
  | cons a l =>
    rw [if_neg (fun hc => absurd (hc a (by simp)) (by rw [decAddr_bin]; simp)), if_neg (by simp)]

theorem tx_no_key (t : Transaction) : ∀ k ∈ [Key.version, .logic], valsP k (txPairs t) = [] := by
  intro k hk
  rw [txPairs, valsP_append, header_keys t.header k (by simp only [List.mem_cons, List.not_mem_nil, or_false] at hk; rcases hk with rfl | rfl <;> decide)]
  simp only [List.mem_cons, List.not_mem_nil, or_false] at hk
  rcases hk with rfl | rfl <;>
    cases t.fields <;> simp [bodyPairs, valsP_append, valsP_cons, valsP_skipIf, valsP_nil]

theorem decMsig_tx (L : Lib) (t : Transaction) : decMsig L (txMP t) = none := by
  rw [txMP, decMsig]
  rw [checkKeys_flat]
  have : req (some 0) .version decByte (flat (txPairs t)) = none := by
    rw [req, vals_flat, tx_no_key t .version (by simp)]
  rw [this]; rfl

theorem decLsig_tx (L : Lib) (t : Transaction) : decLsig L (txMP t) = none := by
  rw [txMP, decLsig]
  rw [checkKeys_flat]
  have : req (some 0) .logic decBytes (flat (txPairs t)) = none := by
    rw [req, vals_flat, tx_no_key t .logic (by simp)]
  rw [this]; rfl

theorem decMsig_lsig (L : Lib) (l : LogicSig) : decMsig L (lsigMP l) = none := rfl

theorem decSig_msig (L : Lib) (m : Msig) : decSig L (msigMP m) = none := by
  have : decBytes (msigMP m) = none := by
    simp [msigMP, decBytes, decVec, decByte]
  simp [decSig, decArr, this]

theorem decSig_lsig (L : Lib) (l : LogicSig) : decSig L (lsigMP l) = none := by
  have : decBytes (lsigMP l) = none := by
    simp [lsigMP, decBytes, decVec, bytesArr, decByte]
  simp [decSig, decArr, this]

theorem decSig_tx (L : Lib) (t : Transaction) : decSig L (txMP t) = none := rfl

theorem decOpt_tx {α : Type} (f : MP → Option α) (t : Transaction) : decOpt f (txMP t) = (f (txMP t)).map some := rfl
theorem decOpt_msig {α : Type} (f : MP → Option α) (m : Msig) : decOpt f (msigMP m) = (f (msigMP m)).map some := rfl
theorem decOpt_lsig {α : Type} (f : MP → Option α) (m : LogicSig) : decOpt f (lsigMP m) = (f (lsigMP m)).map some := rfl

theorem decStx_eq {L : Lib} {s : SignedTx} (h : StxTyped L s) :
    decStx L (stxMP s) =
      if s.sig ≠ zero64 ∧ s.msig ≠ none ∧ s.lsig ≠ none ∧ txAddrs s.tx = [] ∧ (s.authAddr = zero32 ∨ L.binAsSeq = true)
      then some s else none := by
  obtain ⟨sig, msig, lsig, tx, auth⟩ := s
  have hs := decSig_bytesArr h.sig
  have ht := decTx_eq h.tx
  have hm : ∀ m, msig = some m → decMsig L (msigMP m) = some m := fun m e => decMsig_mp (h.msig m e)
  have hl : ∀ m, lsig = some m → decLsig L (lsigMP m) = some m := fun m e => decLsig_mp (h.lsig m e)
  have ha := h.authAddr
  simp only at hs ht ha
  simp only [stxMP, decStx]
  by_cases hz : sig = zero64
  · rw [if_pos hz]
    cases msig with
    | some m => simp [next, decSig_msig, hz]
    | none =>
      cases lsig with
      | some l => simp [next, decSig_lsig, hz]
      | none => simp [next, decSig_tx, hz]
  · rw [if_neg hz]
    cases msig with
    | none =>
      cases lsig with
      | none => simp [next, nextOr, hs, decOpt_tx, decMsig_tx]
      | some l => simp [next, nextOr, hs, decOpt_lsig, decMsig_lsig]
    | some m =>
      cases lsig with
      | none =>
        simp [next, nextOr, hs, decOpt_msig, hm m rfl, decOpt_tx, decLsig_tx]
      | some l =>
        by_cases hx : txAddrs tx = []
        · rw [if_pos hx] at ht
          by_cases hau : auth = zero32
          · simp [next, nextOr, hs, decOpt_msig, hm m rfl, decOpt_lsig, hl l rfl, ht, hau, hz, hx]
          · cases hb : L.binAsSeq <;>
              simp [next, nextOr, hs, decOpt_msig, hm m rfl, decOpt_lsig, hl l rfl, ht, hau, hz, hx, decAddrDirect, hb, ha]
        · rw [if_neg hx] at ht
          simp [next, nextOr, hs, decOpt_msig, hm m rfl, decOpt_lsig, hl l rfl, ht, hx]

end Verif.Codec
