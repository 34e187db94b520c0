import Verif.Model.Estimate
import Verif.Props.Codec
/-!
# C134, C139: sizes of transactions; wrapping signed transactions
-/

namespace Verif.Props
open Verif Verif.Msgpack Verif.Codec Verif.Tx Verif.Block Verif.HashId

/-! ## C134: the estimate of the size -/

/-- The transaction with a plain signature, as the comment in the code makes it. -/
def plainlySigned (t : Transaction) (sig : Bytes) : SignedTx := ⟨sig, none, none, t, List.replicate 32 0⟩

theorem byte_length (x : UInt8) : (enc (.uint x.toNat)).length = 1 + if 128 ≤ x.toNat then 1 else 0 := by
  have hx : x.toNat < 256 := x.toNat_lt
  rw [enc, encUint]
  by_cases h : x.toNat < 128
  · rw [if_pos h, if_neg (by omega)]; rfl
  · rw [if_neg h, if_pos hx, if_pos (by omega)]; rfl

theorem bytes_length : ∀ b : Bytes, (encList (b.map fun x => .uint x.toNat)).length =
    b.length + (b.filter fun x => 128 ≤ x.toNat).length
  | [] => rfl
  | x :: b => by
    rw [List.map_cons, encList, List.length_append, byte_length, bytes_length b, List.filter_cons]
    by_cases h : 128 ≤ x.toNat
    · simp only [h, decide_true, if_true, List.length_cons]; omega
    · simp only [h, decide_false, if_false, List.length_cons, Bool.false_eq_true]; omega

/-- **C134**: the exact size of a plainly signed transaction: that of the transaction, 68 bytes, and one more for every
byte of the signature above 127. -/
theorem C134_signed_length (t : Transaction) (sig : Bytes) (hl : sig.length = 64) (hz : sig ≠ List.replicate 64 0) :
    stxEncodedLength (plainlySigned t sig) = (enc (txMP t)).length + 68 + (sig.filter fun x => 128 ≤ x.toNat).length := by
  have hm : stxMP (plainlySigned t sig) = .arr [bytesArr sig, txMP t] := by
    rw [stxMP, plainlySigned]
    simp only [if_neg (show sig ≠ zero64 from hz), Option.map_none, Option.toList_none, List.append_nil]
    rfl
  have hb : (enc (bytesArr sig)).length = 67 + (sig.filter fun x => 128 ≤ x.toNat).length := by
    rw [bytesArr, enc, List.length_append, bytes_length, List.length_map, hl]
    show 3 + _ = _
    omega
  rw [stxEncodedLength, hm, enc, List.length_append, encList, encList, encList, List.length_append, List.append_nil, hb]
  show 1 + _ = _
  omega

theorem encList_mem {v : MP} {l : List MP} (h : v ∈ l) : (enc v).length ≤ (encList l).length := by
  induction l with
  | nil => cases h
  | cons a l ih =>
    rw [encList, List.length_append]
    rw [List.mem_cons] at h
    rcases h with rfl | h
    · omega
    · have := ih h; omega

theorem flat_mem {k : Key} {v : MP} : ∀ {l : List (Key × MP)}, (k, v) ∈ l → v ∈ flat l
  | [], h => by cases h
  | (k', v') :: l, h => by
    rw [flat]
    rw [List.mem_cons] at h
    rcases h with h | h
    · injection h with _ h
      rw [h]
      simp
    · exact List.mem_cons_of_mem _ (List.mem_cons_of_mem _ (flat_mem h))

/-- The note takes at least one byte per byte. -/
theorem note_length (t : Transaction) : t.header.note.length ≤ (enc (txMP t)).length := by
  by_cases hn : t.header.note = []
  · rw [hn]; exact Nat.zero_le _
  · have h1 : (Key.note, bytesArr t.header.note) ∈ txPairs t := by
      rw [txPairs, headerPairs]
      refine List.mem_append_left _ ?_
      refine List.mem_append_left _ (List.mem_append_left _ (List.mem_append_left _ (List.mem_append_left _
        (List.mem_append_left _ (List.mem_append_right _ ?_)))))
      simp [skipIf, hn]
    have h2 := encList_mem (flat_mem h1)
    have h3 : t.header.note.length ≤ (enc (bytesArr t.header.note)).length := by
      rw [bytesArr, enc, List.length_append, bytes_length]
      omega
    rw [txMP, enc, List.length_append]
    omega

/-- C134 is violated: the estimate of every transaction with a note of 132 bytes or more is below the size of the
transaction with a plain signature, by at least as much as the note is longer. -/
theorem C134_violated (t : Transaction) (sig : Bytes) (hl : sig.length = 64) (hz : sig ≠ List.replicate 64 0) (n : Nat)
    (hn : 132 + n < t.header.note.length) : estimateEncodedSize t + n < stxEncodedLength (plainlySigned t sig) := by
  rw [C134_signed_length t sig hl hz, estimateEncodedSize]
  have := note_length t
  omega

/-- C134 is violated the other way round: a transaction whose estimate is more than one and a half times its size. -/
theorem C134_violated_above : ∃ (L : Lib) (t : Transaction) (sig : Bytes), TxTyped L t ∧ sig.length = 64 ∧
    sig ≠ List.replicate 64 0 ∧ 3 * stxEncodedLength (plainlySigned t sig) < 2 * estimateEncodedSize t := by
  refine ⟨sizesOnly, toyCert, List.replicate 64 1, toyCert_typed _, rfl, by decide, ?_⟩
  rw [C134_signed_length _ _ rfl (by decide)]
  decide +kernel

/-- **C134**, what holds: the estimate is the size with the signature of the comment exactly for the transactions of 132
bytes. Missing: all other transactions. -/
theorem C134_right_iff_partial (t : Transaction) :
    estimateEncodedSize t = stxEncodedLength (plainlySigned t (List.replicate 64 1)) ↔ (enc (txMP t)).length = 132 := by
  rw [C134_signed_length t _ rfl (by decide), estimateEncodedSize,
    show ((List.replicate 64 (1 : UInt8)).filter fun x => 128 ≤ x.toNat).length = 0 by decide]
  omega

/-- A transaction with a long note. -/
def longNote (n : Nat) : Transaction := ⟨{ Header.default with note := List.replicate n 7 }, .compactCert ⟨256⟩⟩

example (n : Nat) : estimateEncodedSize (longNote (n + 133)) + n < stxEncodedLength (plainlySigned (longNote (n + 133)) (List.replicate 64 1)) :=
  C134_violated _ _ rfl (by decide) n (by rw [show (longNote (n + 133)).header.note = List.replicate (n + 133) 7 from rfl, List.length_replicate]; omega)

/-! ## C139: wrapping signed transactions -/

/-- **C139**: wrapping keeps the transactions and their order, and gives each the empty effects. -/
theorem C139_wrap (l : List SignedTx) :
    (wrapSignedTxs l).map (fun s => s.tx) = l ∧
    ∀ s ∈ wrapSignedTxs l, s.ad = .mk ⟨0, 0, 0, 0, 0, [], [], [], 0, 0⟩ .nil := by
  constructor
  · rw [wrapSignedTxs, List.map_map]
    exact List.map_id l
  · intro s hs
    obtain ⟨t, _, rfl⟩ := List.mem_map.1 hs
    rfl

/-- C139: what is written for a wrapped transaction is what is written for the transaction, after one byte. -/
theorem C139_written (l : List SignedTx) :
    (wrapSignedTxs l).map (fun s => enc (stadMP adCodec s)) = l.map fun t => 0x91 :: enc (stxMP t) := by
  rw [wrapSignedTxs, List.map_map]
  refine List.map_congr_left fun t _ => ?_
  have : adCodec.isDefault ApplyData.default = true := by decide +kernel
  simp only [Function.comp, stadMP, this, if_true]
  rw [enc, encList, encList, List.append_nil]
  rfl

/-- C139: with no flags, the transaction in a block is two bytes longer than on its own. -/
theorem C139_length_in_block (t : SignedTx) :
    ∀ s ∈ wrapSignedTxs [t], stibEncodedLength ⟨s, false, false⟩ = stxEncodedLength t + 2 := by
  intro s hs
  have e : s = ⟨t, .default⟩ := List.mem_singleton.1 hs
  have hw := C139_written [t]
  simp only [wrapSignedTxs, List.map_cons, List.map_nil, List.cons.injEq, and_true] at hw
  subst e
  rw [stibEncodedLength, stibMP]
  simp only [Bool.false_eq_true, if_false, List.append_nil]
  rw [enc, encList, encList, List.append_nil, hw, stxEncodedLength, List.length_append, List.length_cons]
  show 1 + (_ + 1) = _
  omega

/-- A case of `C134_signed_length`: a signature with bytes 200, which take two bytes each. -/
example (t : Transaction) : stxEncodedLength (plainlySigned t (List.replicate 64 200)) = (enc (txMP t)).length + 132 := by
  rw [C134_signed_length t (List.replicate 64 200) (by decide) (by decide)]
  have : ((List.replicate 64 (200 : UInt8)).filter fun x => 128 ≤ x.toNat).length = 64 := by decide
  omega

end Verif.Props
