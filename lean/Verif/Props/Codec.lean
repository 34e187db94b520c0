import Verif.Lemmas.CodecBlock
import Verif.Lemmas.CodecStx
import Verif.Lemmas.MerkleRoot
import Verif.Props.MerkleArray
import Verif.Props.Block
/-!
# Properties of the encodings (C66, C67, C78, C82 - C87)

The encodings are the concrete ones of `Verif.Model.Codec`; "typed" hypotheses say that the fields have the sizes of
their Rust types.
-/

namespace Verif.Props
open Verif Verif.Msgpack Verif.Codec Verif.Tx Verif.Block Verif.HashId Verif.Consensus Verif.MerkleArray

/-! ## C66: the block encoding of a transaction -/

/-- C66 is violated: a transaction stored with its genesis id stripped and one stored with its genesis hash stripped have
the same encoding, whatever the transaction and its apply data. -/
theorem C66_flags_collide (t : Stad ApplyData) :
    (⟨t, true, false⟩ : Stib ApplyData) ≠ ⟨t, false, true⟩ ∧
    enc (stibMP adCodec ⟨t, true, false⟩) = enc (stibMP adCodec ⟨t, false, true⟩) :=
  ⟨by simp, rfl⟩

/-- C66, what does hold: the encoding determines the signed transaction, the apply data and the number of flags that are
set, and nothing else. Missing: which flag it is. -/
theorem C66_determined_partial (a b : Stib ApplyData) (ha : StibTyped a) (hb : StibTyped b) :
    enc (stibMP adCodec a) = enc (stibMP adCodec b) ↔
      a.tx.tx = b.tx.tx ∧ a.tx.ad = b.tx.ad ∧
      [a.hasGenesisId, a.hasGenesisHash].count true = [b.hasGenesisId, b.hasGenesisHash].count true := by
  have hc : ∀ s : Stib ApplyData, [s.hasGenesisId, s.hasGenesisHash].count true = flagCount s := by
    intro s
    cases h1 : s.hasGenesisId <;> cases h2 : s.hasGenesisHash <;> simp [flagCount, h1, h2]
  rw [hc, hc]
  constructor
  · intro h
    obtain ⟨h1, h2⟩ := (stibMP_eq_iff ha hb).1 (enc_inj (fits_stib ha) (fits_stib hb) h)
    rw [h1]; exact ⟨rfl, rfl, h2⟩
  · rintro ⟨h1, h2, h3⟩
    rw [(stibMP_eq_iff ha hb).2 ⟨by
      obtain ⟨⟨_, _⟩, _, _⟩ := a
      obtain ⟨⟨_, _⟩, _, _⟩ := b
      simp only at h1 h2
      rw [h1, h2], h3⟩]

/-- A compact certificate transaction with an empty header. -/
def toyCert : Transaction := ⟨Header.default, .compactCert ⟨256⟩⟩

theorem toyCert_typed (L : Lib) : TxTyped L toyCert :=
  ⟨⟨by decide, by decide, by decide, by decide, by decide, by decide, by decide, by decide, by decide, by decide, rfl⟩,
    show 256 < u64Lim by decide⟩

/-- A payment of the given amount. -/
def toyTransfer (amount : Nat) : Transaction :=
  ⟨{ Header.default with sender := List.replicate 32 1, fee := 1000, lastValid := 100 },
    .payment ⟨List.replicate 32 2, amount, none⟩⟩

theorem toyTransfer_typed (L : Lib) (n : Nat) (h : n < u64Lim) : TxTyped L (toyTransfer n) := by
  have hd : ∀ h : Header, h = { Header.default with sender := List.replicate 32 1, fee := 1000, lastValid := 100 } →
      HeaderTyped h := by
    intro h e
    subst e
    exact ⟨by decide, by decide, by decide, by decide, by decide, by decide, by decide, by decide, by decide, by decide, rfl⟩
  exact ⟨hd _ rfl, show _ from ⟨List.length_replicate, h, by simp⟩⟩

/-- A transaction signed with a key. -/
def toySigned (t : Transaction) : SignedTx := ⟨List.replicate 64 7, none, none, t, zero32⟩

theorem toySigned_typed {t : Transaction} (h : TxTyped sizesOnly t) : StxTyped sizesOnly (toySigned t) :=
  ⟨⟨List.length_replicate, rfl⟩, by simp [toySigned], by simp [toySigned], h, List.length_replicate⟩

theorem default_typed : ApplyData.default.Typed := by
  rw [ApplyData.default, ApplyData.Typed]
  exact ⟨⟨by decide, by decide, by decide, by decide, by decide, ⟨by decide, by simp [AdFlat.default]⟩,
    ⟨by decide, by simp [AdFlat.default]⟩, ⟨by decide, by simp [AdFlat.default]⟩, by decide, by decide⟩, by decide,
    by simp [InnerTxs.Typed]⟩

/-- C66 on two transactions that differ in the amount. -/
example : enc (stibMP adCodec ⟨⟨toySigned (toyTransfer 5), .default⟩, true, false⟩) ≠
    enc (stibMP adCodec ⟨⟨toySigned (toyTransfer 6), .default⟩, true, false⟩) := by
  intro h
  have := (C66_determined_partial _ _ ⟨toySigned_typed (toyTransfer_typed _ 5 (by decide)), default_typed⟩
    ⟨toySigned_typed (toyTransfer_typed _ 6 (by decide)), default_typed⟩).1 h
  simp [toySigned, toyTransfer] at this

/-! ## C67: reading back what was written -/

/-- C67: exactly which signed transactions survive: those with a signature, a multisignature and a logic signature, in
which no address is written (and no authorizing address either, unless the MessagePack reader accepts a binary string
for an array). All others are rejected when they are read; a value that is accepted is the right one. Missing: all
signed transactions. -/
theorem C67_survivors_partial (L : Lib) (s : SignedTx) (rest : Bytes) (h : StxTyped L s) :
    decodeStx L (enc (stxMP s) ++ rest) =
      if s.sig ≠ List.replicate 64 0 ∧ s.msig ≠ none ∧ s.lsig ≠ none ∧ txAddrs s.tx = [] ∧
        (s.authAddr = List.replicate 32 0 ∨ L.binAsSeq = true)
      then some s else none := by
  rw [decodeStx, decode_enc _ _ (fits_stx h)]
  exact decStx_eq h

/-- C67 is violated: no transaction signed with `Transaction::sign` can be read back, whatever the key and the libraries. -/
theorem C67_signed_lost (L : Lib) (S : Multisig.Scheme) (tx : Transaction) (sk : S.Sk)
    (h : StxTyped L (sign S (fun t => enc (txMP t)) tx sk)) :
    decodeStx L (enc (stxMP (sign S (fun t => enc (txMP t)) tx sk))) = none := by
  have := C67_survivors_partial L _ [] h
  rw [List.append_nil] at this
  rw [this]
  exact if_neg fun hc => hc.2.1 rfl

/-- C67 is violated for multisignatures and logic signatures alike: a signed transaction that lacks one of the three
kinds of signature cannot be read back. -/
theorem C67_any_lost (L : Lib) (s : SignedTx) (h : StxTyped L s)
    (hs : s.sig = List.replicate 64 0 ∨ s.msig = none ∨ s.lsig = none) : decodeStx L (enc (stxMP s)) = none := by
  have := C67_survivors_partial L s [] h
  rw [List.append_nil] at this
  rw [this]
  refine if_neg fun hc => ?_
  rcases hs with e | e | e
  · exact hc.1 e
  · exact hc.2.1 e
  · exact hc.2.2.1 e

/-- C67 for unsigned transactions: they survive exactly if no address is written. Missing: all others. -/
theorem C67_transaction_partial (L : Lib) (t : Transaction) (rest : Bytes) (h : TxTyped L t) :
    decodeTx L (enc (txMP t) ++ rest) = if txAddrs t = [] then some t else none := by
  rw [decodeTx, decode_enc _ _ (fits_tx h)]
  exact decTx_eq h

/-- C67 is violated for every transaction with a sender: it cannot be read back. -/
theorem C67_sender_lost (L : Lib) (t : Transaction) (h : TxTyped L t) (hs : t.header.sender ≠ List.replicate 32 0) :
    decodeTx L (enc (txMP t)) = none := by
  have := C67_transaction_partial L t [] h
  rw [List.append_nil] at this
  rw [this]
  refine if_neg fun hc => ?_
  rw [txAddrs, headerAddrs, if_neg (show ¬ t.header.sender = zero32 from hs)] at hc
  simp at hc

example : decodeTx sizesOnly (enc (txMP (toyTransfer 5))) = none :=
  C67_sender_lost _ _ (toyTransfer_typed _ 5 (by decide)) (by decide)

example : decodeTx sizesOnly (enc (txMP toyCert)) = some toyCert := by
  have := C67_transaction_partial sizesOnly toyCert [] (toyCert_typed _)
  rw [List.append_nil] at this
  rw [this]; decide

/-- A transaction that does survive. -/
example : decodeStx sizesOnly (enc (stxMP
    ⟨List.replicate 64 7, some ⟨1, 1, []⟩, some ⟨[1], List.replicate 64 0, ⟨0, 0, []⟩, []⟩, toyCert, zero32⟩)) =
    some ⟨List.replicate 64 7, some ⟨1, 1, []⟩, some ⟨[1], List.replicate 64 0, ⟨0, 0, []⟩, []⟩, toyCert, zero32⟩ := by
  have := C67_survivors_partial sizesOnly
    ⟨List.replicate 64 7, some ⟨1, 1, []⟩, some ⟨[1], List.replicate 64 0, ⟨0, 0, []⟩, []⟩, toyCert, zero32⟩ []
    ⟨⟨by decide, rfl⟩,
      fun m hm => by simp only [Option.some.injEq] at hm; subst hm; exact ⟨by decide, by simp, by simp⟩,
      fun l hl => by
        simp only [Option.some.injEq] at hl; subst hl
        exact ⟨by decide, ⟨by decide, rfl⟩, ⟨by decide, by simp, by simp⟩, ⟨by decide, by simp⟩⟩,
      toyCert_typed _, by decide⟩
  rw [List.append_nil] at this
  rw [this, if_pos (by decide)]

/-! ## C83: transaction ids -/

/-- C83: two transactions with the same id are the same transaction, unless the two explicit strings that were hashed
collide. -/
theorem C83_tx_id_binds {AD : Type} (A : AdCodec AD) (hash : Bytes → Bytes) (a b : Transaction)
    (ha : TxTyped sizesOnly a) (hb : TxTyped sizesOnly b)
    (h : txId (blockEnv hash A) a = txId (blockEnv hash A) b) :
    a = b ∨ (HashId.transaction.bytes ++ enc (txMP a) ≠ HashId.transaction.bytes ++ enc (txMP b) ∧
      hash (HashId.transaction.bytes ++ enc (txMP a)) = hash (HashId.transaction.bytes ++ enc (txMP b))) := by
  by_cases he : HashId.transaction.bytes ++ enc (txMP a) = HashId.transaction.bytes ++ enc (txMP b)
  · exact Or.inl (txMP_inj ha hb (enc_inj (fits_tx ha) (fits_tx hb) (List.append_cancel_left he)))
  · exact Or.inr ⟨he, h⟩

/-- C83: an id is never the digest of another kind of object, unless the two strings collide. -/
theorem C83_tx_id_kind {AD : Type} (A : AdCodec AD) (hash : Bytes → Bytes) (a : Transaction) (o : ToBeHashed)
    (ho : o.id ≠ .transaction) (h : txId (blockEnv hash A) a = hashObj hash o) :
    HashId.transaction.bytes ++ enc (txMP a) ≠ o.id.bytes ++ o.data ∧
      hash (HashId.transaction.bytes ++ enc (txMP a)) = hash (o.id.bytes ++ o.data) := by
  refine ⟨fun he => ho ?_, h⟩
  have := C14_domain_separation ⟨.transaction, enc (txMP a)⟩ o he
  rw [← this]

/-- C83 on two payments of different amounts: under a hash that keeps the text the ids differ. -/
example (A : AdCodec ApplyData) : txId (blockEnv id A) (toyTransfer 5) ≠ txId (blockEnv id A) (toyTransfer 6) := by
  intro h
  rcases C83_tx_id_binds A id _ _ (toyTransfer_typed _ 5 (by decide)) (toyTransfer_typed _ 6 (by decide)) h with h | h
  · simp [toyTransfer] at h
  · exact h.1 h.2

/-! ## C84: group ids -/

/-- C84: the id of a group determines the list of its transaction ids, in order, unless the two strings collide. -/
theorem C84_group_id_binds (hash : Bytes → Bytes) (a b : List Bytes)
    (ha : a.length < u32Lim ∧ ∀ x ∈ a, x.length = 32) (hb : b.length < u32Lim ∧ ∀ x ∈ b, x.length = 32)
    (h : groupId hash a = groupId hash b) :
    a = b ∨ (HashId.txGroup.bytes ++ enc (txGroupMP a) ≠ HashId.txGroup.bytes ++ enc (txGroupMP b) ∧
      hash (HashId.txGroup.bytes ++ enc (txGroupMP a)) = hash (HashId.txGroup.bytes ++ enc (txGroupMP b))) := by
  by_cases he : HashId.txGroup.bytes ++ enc (txGroupMP a) = HashId.txGroup.bytes ++ enc (txGroupMP b)
  · exact Or.inl (txGroupMP_inj (enc_inj (fits_txGroup ha.1 ha.2) (fits_txGroup hb.1 hb.2) (List.append_cancel_left he)))
  · exact Or.inr ⟨he, h⟩

/-- C84: the id of a list of signed transactions determines the list, in order, unless the two strings collide. -/
theorem C84_vec_id_binds (hash : Bytes → Bytes) (a b : List SignedTx)
    (ha : a.length < u32Lim ∧ ∀ x ∈ a, StxTyped sizesOnly x) (hb : b.length < u32Lim ∧ ∀ x ∈ b, StxTyped sizesOnly x)
    (h : stxVecId hash a = stxVecId hash b) :
    a = b ∨ (HashId.txGroup.bytes ++ enc (stxVecMP a) ≠ HashId.txGroup.bytes ++ enc (stxVecMP b) ∧
      hash (HashId.txGroup.bytes ++ enc (stxVecMP a)) = hash (HashId.txGroup.bytes ++ enc (stxVecMP b))) := by
  by_cases he : HashId.txGroup.bytes ++ enc (stxVecMP a) = HashId.txGroup.bytes ++ enc (stxVecMP b)
  · exact Or.inl (stxVecMP_inj ha.2 hb.2 (enc_inj (fits_stxVec ha.1 ha.2) (fits_stxVec hb.1 hb.2) (List.append_cancel_left he)))
  · exact Or.inr ⟨he, h⟩

/-- C84: although both carry the same tag, the string hashed for a group of ids is never the one hashed for a list of
signed transactions; so equal ids are a collision of two explicit strings. -/
theorem C84_same_tag_no_confusion (hash : Bytes → Bytes) (a : List Bytes) (b : List SignedTx)
    (ha : a.length < u32Lim ∧ ∀ x ∈ a, x.length = 32) (hb : b.length < u32Lim ∧ ∀ x ∈ b, StxTyped sizesOnly x)
    (h : groupId hash a = stxVecId hash b) :
    HashId.txGroup.bytes ++ enc (txGroupMP a) ≠ HashId.txGroup.bytes ++ enc (stxVecMP b) ∧
      hash (HashId.txGroup.bytes ++ enc (txGroupMP a)) = hash (HashId.txGroup.bytes ++ enc (stxVecMP b)) :=
  ⟨fun he => group_ne_vec a b (enc_inj (fits_txGroup ha.1 ha.2) (fits_stxVec hb.1 hb.2) (List.append_cancel_left he)), h⟩

/-- Order matters. -/
example : groupId id [List.replicate 32 1, List.replicate 32 2] ≠ groupId id [List.replicate 32 2, List.replicate 32 1] := by
  intro h
  have hl : ∀ a b : UInt8, [List.replicate 32 a, List.replicate 32 b].length < u32Lim ∧
      ∀ x ∈ [List.replicate 32 a, List.replicate 32 b], x.length = 32 := fun a b => ⟨by simp [u32Lim], by simp⟩
  rcases C84_group_id_binds id _ _ (hl 1 2) (hl 2 1) h with h | h
  · revert h; decide
  · exact h.1 h.2

/-! ## C85: one byte string per value -/

/-- C85 is violated: what follows a value is not looked at, so every byte string that is accepted as a transaction can be
extended at will. -/
theorem C85_trailing_ignored (L : Lib) (t : Transaction) (h : TxTyped L t) (junk : Bytes) :
    decodeTx L (enc (txMP t) ++ junk) = decodeTx L (enc (txMP t)) := by
  have := C67_transaction_partial L t [] h
  rw [List.append_nil] at this
  rw [C67_transaction_partial L t junk h, this]

/-- C85 is violated observably: two different strings are both accepted as the same transaction. -/
theorem C85_two_strings (L : Lib) : ∃ x y : Bytes, x ≠ y ∧ decodeTx L x = some toyCert ∧ decodeTx L y = some toyCert := by
  refine ⟨enc (txMP toyCert) ++ [], enc (txMP toyCert) ++ [0], by simp, ?_, ?_⟩
  · rw [C67_transaction_partial L toyCert [] (toyCert_typed L)]; exact if_pos (by decide)
  · rw [C67_transaction_partial L toyCert [0] (toyCert_typed L)]; exact if_pos (by decide)

/-- C85 is violated in a second way: integers (and lengths) are accepted in longer forms than the one that is written. -/
theorem C85_long_forms (n : Nat) (h : n < 128) (rest : Bytes) :
    decode (0xcc :: UInt8.ofNat n :: rest) = some (.uint n, rest) ∧ decode (UInt8.ofNat n :: rest) = some (.uint n, rest) := by
  have hn : (UInt8.ofNat n).toNat = n := ofNat_toNat n (by omega)
  constructor
  · have hm : n % 256 = n := by omega
    simp [decode, dec, decBody, takeBE, takeN, ofBE, hm]
  · simp only [decode, List.length_cons, dec, decBody, hn]
    rw [if_pos (by omega)]

/-- C85, what does hold: the writer gives different transactions different strings, none of which begins with another
one. Missing: the reader accepts other strings too. -/
theorem C85_prefix_free_partial (a b : Transaction) (ha : TxTyped sizesOnly a) (hb : TxTyped sizesOnly b)
    (h : enc (txMP a) <+: enc (txMP b)) : a = b := by
  obtain ⟨r, hr⟩ := h
  have : enc (txMP a) ++ r = enc (txMP b) ++ [] := by rw [hr, List.append_nil]
  exact txMP_inj ha hb (enc_inj_append (fits_tx ha) (fits_tx hb) this).1

/-- C85 for signed transactions: the same. -/
theorem C85_signed_prefix_free_partial (a b : SignedTx) (ha : StxTyped sizesOnly a) (hb : StxTyped sizesOnly b)
    (h : enc (stxMP a) <+: enc (stxMP b)) : a = b := by
  obtain ⟨r, hr⟩ := h
  have : enc (stxMP a) ++ r = enc (stxMP b) ++ [] := by rw [hr, List.append_nil]
  exact stxMP_inj ha hb (enc_inj_append (fits_stx ha) (fits_stx hb) this).1

example : ¬ enc (txMP (toyTransfer 5)) <+: enc (txMP (toyTransfer 6)) := fun h => by
  have := C85_prefix_free_partial _ _ (toyTransfer_typed _ 5 (by decide)) (toyTransfer_typed _ 6 (by decide)) h
  simp [toyTransfer] at this

/-! ## C86: the encoding is a function of the value -/

/-- Two entries of a state delta. -/
def toyDeltas : List (Bytes × Teal.ValueDelta) := [([97], ⟨.setUint, [], 1⟩), ([98], ⟨.setUint, [], 2⟩)]

/-- Apply data with the given global delta. -/
def toyAd (g : List (Bytes × Teal.ValueDelta)) : ApplyData := .mk { AdFlat.default with globalDelta := g } .nil

/-- C86 is violated: apply data that changes two global keys is written in the order in which the map yields its entries,
so the same value has two encodings (and two digests). -/
theorem C86_order_matters (t : SignedTx) (f g : Bool) :
    (toyAd toyDeltas).Same (toyAd toyDeltas.reverse) ∧
    stibMP adCodec ⟨⟨t, toyAd toyDeltas⟩, f, g⟩ ≠ stibMP adCodec ⟨⟨t, toyAd toyDeltas.reverse⟩, f, g⟩ := by
  constructor
  · rw [toyAd, toyAd, ApplyData.Same]
    refine ⟨⟨rfl, rfl, rfl, rfl, rfl, (List.reverse_perm _).symm, ⟨[], List.Perm.refl _, List.Forall₂.nil⟩, rfl, rfl, rfl⟩, ?_⟩
    rw [InnerTxs.Same]; trivial
  · intro h
    simp only [stibMP, stadMP, MP.arr.injEq, List.cons.injEq] at h
    have hd : ∀ l, l ≠ [] → adCodec.isDefault (toyAd l) = false := by
      intro l hl
      simp [adCodec, toyAd, ApplyData.isDefault, AdFlat.default, hl]
    rw [hd _ (by simp [toyDeltas]), hd _ (by simp [toyDeltas])] at h
    simp only [Bool.false_eq_true, if_false, List.cons.injEq, true_and, and_true, adCodec, toyAd, adMP] at h
    have := congrArg AdFlat.globalDelta (adWith_inj h).1
    revert this
    simp [toyDeltas]

/-- C86 is violated for the digest too: for every hash, either the two orders give two digests of the same value, or the
hash collides on two explicit strings. -/
theorem C86_digest_differs (hash : Bytes → Bytes) (t : SignedTx) (ht : StxTyped sizesOnly t) :
    hash (hashRep ⟨.signedTxInBlock, enc (stibMP adCodec ⟨⟨t, toyAd toyDeltas⟩, false, false⟩)⟩) ≠
      hash (hashRep ⟨.signedTxInBlock, enc (stibMP adCodec ⟨⟨t, toyAd toyDeltas.reverse⟩, false, false⟩)⟩) ∨
    (hashRep ⟨.signedTxInBlock, enc (stibMP adCodec ⟨⟨t, toyAd toyDeltas⟩, false, false⟩)⟩ ≠
      hashRep ⟨.signedTxInBlock, enc (stibMP adCodec ⟨⟨t, toyAd toyDeltas.reverse⟩, false, false⟩)⟩ ∧
     hash (hashRep ⟨.signedTxInBlock, enc (stibMP adCodec ⟨⟨t, toyAd toyDeltas⟩, false, false⟩)⟩) =
      hash (hashRep ⟨.signedTxInBlock, enc (stibMP adCodec ⟨⟨t, toyAd toyDeltas.reverse⟩, false, false⟩)⟩)) := by
  by_cases he : hash (hashRep ⟨.signedTxInBlock, enc (stibMP adCodec ⟨⟨t, toyAd toyDeltas⟩, false, false⟩)⟩) =
      hash (hashRep ⟨.signedTxInBlock, enc (stibMP adCodec ⟨⟨t, toyAd toyDeltas.reverse⟩, false, false⟩)⟩)
  · refine Or.inr ⟨fun h => ?_, he⟩
    have ty : ∀ l : List (Bytes × Teal.ValueDelta), StateDeltaTyped l → (toyAd l).Typed := by
      intro l hl
      rw [toyAd, ApplyData.Typed]
      have hz : (0 : Nat) < u64Lim := by decide
      have hz' : (0 : Nat) < u32Lim := by decide
      exact ⟨⟨hz, hz, hz, hz, hz, hl, ⟨hz', by simp [AdFlat.default]⟩, ⟨hz', by simp [AdFlat.default]⟩, hz, hz⟩, hz',
        by simp [InnerTxs.Typed]⟩
    have t1 : StateDeltaTyped toyDeltas := ⟨by decide, by simp [toyDeltas, DeltaTyped, u32Lim, u64Lim]⟩
    have t2 : StateDeltaTyped toyDeltas.reverse := ⟨by decide, by simp [toyDeltas, DeltaTyped, u32Lim, u64Lim]⟩
    exact (C86_order_matters t false false).2 (enc_inj (fits_stib ⟨ht, ty _ t1⟩) (fits_stib ⟨ht, ty _ t2⟩)
      (ToBeHashed.mk.inj (C14_domain_separation _ _ h)).2)
  · exact Or.inl he

/-- No map with two entries. -/
def AdFlatOrdered (f : AdFlat) : Prop :=
  f.globalDelta.length ≤ 1 ∧ f.localDeltas.length ≤ 1 ∧ ∀ e ∈ f.localDeltas, e.2.length ≤ 1

mutual
/-- No map with two entries anywhere. -/
def AdOrdered : ApplyData → Prop
  | .mk f i => AdFlatOrdered f ∧ InnerOrdered i
/-- The same for inner transactions. -/
def InnerOrdered : InnerTxs → Prop
  | .nil => True
  | .cons _ a r => AdOrdered a ∧ InnerOrdered r
end

theorem perm_short {α : Type} {a b : List α} (h : a.Perm b) (hl : a.length ≤ 1) : a = b := by
  match a, hl with
  | [], _ => exact (List.nil_perm.1 h).symm
  | [x], _ => exact List.singleton_perm.1 h

theorem adFlat_same {f g : AdFlat} (hf : AdFlatOrdered f) (h : f.Same g) : f = g := by
  obtain ⟨h1, h2, h3, h4, h5, h6, ⟨l, h7, h8⟩, h9, h10, h11⟩ := h
  obtain ⟨a1, a2, a3, a4, a5, a6, a7, a8, a9, a10⟩ := f
  obtain ⟨b1, b2, b3, b4, b5, b6, b7, b8, b9, b10⟩ := g
  simp only at h1 h2 h3 h4 h5 h6 h7 h8 h9 h10 h11
  have e6 := perm_short h6 hf.1
  have e8 : a7 = l := by
    have hs : ∀ e ∈ a7, e.2.length ≤ 1 := hf.2.2
    clear h7 hf
    induction h8 with
    | nil => rfl
    | @cons x y l1 l2 hxy _ ih =>
      rw [ih (fun e he => hs e (by simp [he]))]
      obtain ⟨x1, x2⟩ := x
      obtain ⟨y1, y2⟩ := y
      simp only at hxy
      rw [hxy.1, perm_short hxy.2 (hs (x1, x2) (by simp))]
  have e7 : l = b7 := perm_short h7 (by rw [← e8]; exact hf.2.1)
  rw [h1, h2, h3, h4, h5, e6, e8, e7, h9, h10, h11]

mutual
theorem ad_same : ∀ {a b : ApplyData}, AdOrdered a → a.Same b → a = b
  | .mk f i, .mk g j, ha, h => by
    rw [AdOrdered] at ha
    rw [ApplyData.Same] at h
    rw [adFlat_same ha.1 h.1, inner_same ha.2 h.2]
theorem inner_same : ∀ {a b : InnerTxs}, InnerOrdered a → a.Same b → a = b
  | .nil, .nil, _, _ => rfl
  | .nil, .cons _ _ _, _, h => by simp [InnerTxs.Same] at h
  | .cons _ _ _, .nil, _, h => by simp [InnerTxs.Same] at h
  | .cons t a r, .cons t' a' r', ha, h => by
    rw [InnerOrdered] at ha
    rw [InnerTxs.Same] at h
    rw [h.1, ad_same ha.1 h.2.1, inner_same ha.2 h.2.2]
end

/-- C86, what does hold: when no map has two entries, equal values have equal encodings. Missing: maps with two entries. -/
theorem C86_small_maps_partial (t : SignedTx) (a b : ApplyData) (f g : Bool) (ha : AdOrdered a) (h : a.Same b) :
    stibMP adCodec ⟨⟨t, a⟩, f, g⟩ = stibMP adCodec ⟨⟨t, b⟩, f, g⟩ := by rw [ad_same ha h]

example : AdOrdered (toyAd [([97], ⟨.setUint, [], 1⟩)]) := by
  rw [toyAd, AdOrdered, InnerOrdered]
  exact ⟨⟨by simp, by simp [AdFlat.default], by simp [AdFlat.default]⟩, trivial⟩

/-! ## C87: identifiers certified by one-time signatures -/

/-- C87: the string signed to certify a batch key names the key and the batch, the string signed to certify an offset key
names the key, the batch and the offset, and a certificate of one kind never is one of the other kind. -/
theorem C87_certificates_name_slot (pk pk' : Bytes) (b b' o o' : Nat) (hp : pk.length = 32) (hp' : pk'.length = 32)
    (hb : b < u64Lim) (hb' : b' < u64Lim) (ho : o < u64Lim) (ho' : o' < u64Lim) :
    (Ots.batchRep otsEnc pk b = Ots.batchRep otsEnc pk' b' → pk = pk' ∧ b = b') ∧
    (Ots.offsetRep otsEnc pk b o = Ots.offsetRep otsEnc pk' b' o' → pk = pk' ∧ b = b' ∧ o = o') ∧
    Ots.batchRep otsEnc pk b ≠ Ots.offsetRep otsEnc pk' b' o' := by
  refine ⟨fun h => ?_, fun h => ?_, fun h => ?_⟩
  · have := (ToBeHashed.mk.inj (C14_domain_separation _ _ h)).2
    exact batchIdMP_inj (enc_inj (fits_batchId hp hb) (fits_batchId hp' hb') this)
  · have := (ToBeHashed.mk.inj (C14_domain_separation _ _ h)).2
    exact offsetIdMP_inj (enc_inj (fits_offsetId hp hb ho) (fits_offsetId hp' hb' ho') this)
  · have := (ToBeHashed.mk.inj (C14_domain_separation _ _ h)).1
    cases this

example : Ots.batchRep otsEnc (List.replicate 32 1) 3 ≠ Ots.batchRep otsEnc (List.replicate 32 1) 4 := fun h => by
  have := (C87_certificates_name_slot _ _ 3 4 0 0 (by simp) (by simp) (by decide) (by decide) (by decide) (by decide)).1 h
  exact absurd this.2 (by decide)

/-! ## C82: the block digest, with the concrete encoding -/

/-- C82, what does hold for the encoding of the code: two headers with the same digest agree on everything but the upgrade
state, unless two explicit strings collide. Missing: the upgrade state. -/
theorem C82_digest_concrete_partial {AD : Type} (A : AdCodec AD) (hash : Bytes → Bytes) (a b : BlockHeader)
    (ha : HeaderBodyTyped a.body) (hb : HeaderBodyTyped b.body)
    (h : headerHash (blockEnv hash A) a = headerHash (blockEnv hash A) b) :
    a.body = b.body ∨
    (HashId.blockHeader.bytes ++ enc (headerMP a.body) ≠ HashId.blockHeader.bytes ++ enc (headerMP b.body) ∧
     hash (HashId.blockHeader.bytes ++ enc (headerMP a.body)) = hash (HashId.blockHeader.bytes ++ enc (headerMP b.body))) := by
  by_cases he : HashId.blockHeader.bytes ++ enc (headerMP a.body) = HashId.blockHeader.bytes ++ enc (headerMP b.body)
  · exact Or.inl (headerMP_inj (enc_inj (fits_header ha) (fits_header hb) (List.append_cancel_left he)))
  · exact Or.inr ⟨he, h⟩

/-! ## Cases -/

/-- A case of `C67_any_lost`: a payment with a plain signature. -/
example : decodeStx sizesOnly (enc (stxMP (toySigned (toyTransfer 5)))) = none :=
  C67_any_lost _ _ (toySigned_typed (toyTransfer_typed _ 5 (by decide))) (Or.inr (Or.inl rfl))

/-- A scheme whose signatures are 64 bytes 7. -/
def sevenScheme : Multisig.Scheme := ⟨Unit, fun _ => List.replicate 32 1, fun _ _ => List.replicate 64 7, fun _ _ _ => true⟩

/-- A case of `C67_signed_lost`: what `sign` makes of that payment. -/
example : decodeStx sizesOnly (enc (stxMP (sign sevenScheme (fun t => enc (txMP t)) (toyTransfer 5) ()))) = none := by
  refine C67_signed_lost _ _ _ _ ⟨⟨List.length_replicate, rfl⟩, by simp [sign], by simp [sign],
    toyTransfer_typed _ 5 (by decide), ?_⟩
  simp [Tx.sign, sevenScheme, toyTransfer]
  decide

/-- A case of `C84_vec_id_binds`: the digest is the text itself. -/
example : stxVecId id [toySigned (toyTransfer 5)] ≠ stxVecId id [toySigned (toyTransfer 6)] := by
  intro h
  have ht : ∀ n, n < u64Lim → [toySigned (toyTransfer n)].length < u32Lim ∧ ∀ x ∈ [toySigned (toyTransfer n)], StxTyped sizesOnly x :=
    fun n hn => ⟨show 1 < u32Lim by decide, fun x hx => by
      rw [List.mem_singleton.1 hx]; exact toySigned_typed (toyTransfer_typed _ n hn)⟩
  rcases C84_vec_id_binds id _ _ (ht 5 (by decide)) (ht 6 (by decide)) h with h | h
  · simp [toySigned, toyTransfer] at h
  · exact h.1 h.2

/-- A case of `C85_trailing_ignored`. -/
example : decodeTx sizesOnly (enc (txMP toyCert) ++ [1, 2, 3]) = decodeTx sizesOnly (enc (txMP toyCert)) :=
  C85_trailing_ignored _ _ (toyCert_typed _) _

/-- A case of `C85_long_forms`: the number 5 in one byte and in two. -/
example : decode [0xcc, 5, 9] = some (.uint 5, [9]) ∧ decode [5, 9] = some (.uint 5, [9]) := C85_long_forms 5 (by decide) [9]

/-- A case of `C86_digest_differs`: the digest is the text itself. -/
example : hashRep ⟨.signedTxInBlock, enc (stibMP adCodec ⟨⟨toySigned (toyTransfer 5), toyAd toyDeltas⟩, false, false⟩)⟩ ≠
    hashRep ⟨.signedTxInBlock, enc (stibMP adCodec ⟨⟨toySigned (toyTransfer 5), toyAd toyDeltas.reverse⟩, false, false⟩)⟩ := by
  rcases C86_digest_differs id (toySigned (toyTransfer 5)) (toySigned_typed (toyTransfer_typed _ 5 (by decide))) with h | h
  · exact h
  · exact h.1

end Verif.Props
