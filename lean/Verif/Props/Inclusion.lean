import Verif.Props.PaysetCommit
import Verif.Props.Header
/-!
# C154: proofs that a transaction is in a block

Somebody who has nothing but a header can be shown which transactions are at which places of the block. The leaf for a
transaction and its stored form is written down here without the model: two hashes under the tag of Merkle leaves.
-/

namespace Verif.Props
open Verif Verif.Msgpack Verif.Codec Verif.Tx Verif.Block Verif.HashId Verif.Consensus Verif.MerkleArray

/-- What is hashed for a transaction. -/
def txString (t : Transaction) : Bytes := HashId.transaction.bytes ++ enc (txMP t)

/-- What is hashed for the stored form of a transaction. -/
def stibString (s : Stib ApplyData) : Bytes := HashId.signedTxInBlock.bytes ++ enc (stibMP adCodec s)

/-- What is hashed for a leaf: the id of the transaction and the hash of the stored form. -/
def leafString (hash : Bytes → Bytes) (t : Transaction) (s : Stib ApplyData) : Bytes :=
  HashId.txMerkleLeaf.bytes ++ (hash (txString t) ++ hash (stibString s))

/-- A claim: this transaction, stored in this form, is at this place of the block. -/
structure InclusionClaim where
  pos : Nat
  tx : Transaction
  stib : Stib ApplyData

/-- What is handed to the verifier for claims. -/
def claimed (hash : Bytes → Bytes) (l : List InclusionClaim) : List (Nat × Bytes) :=
  l.map fun c => (c.pos, hash (leafString hash c.tx c.stib))

/-- The strings hashed to make the claims. -/
def claimStrings (hash : Bytes → Bytes) (l : List InclusionClaim) : List Bytes :=
  l.map (fun c => leafString hash c.tx c.stib) ++ l.flatMap (fun c => [txString c.tx, stibString c.stib])

theorem leaves_get {hash : Bytes → Bytes} {tbl : Protocols} {h : BlockHeader} :
    ∀ {p : List (Stib ApplyData)} {l : List ToBeHashed}, merkleLeaves (blockEnv hash adCodec) tbl h p = .ok l →
    l.length = p.length ∧ ∀ (i : Nat) (s : Stib ApplyData), p[i]? = some s → ∃ d : Stad ApplyData, decodeSignedTx tbl h s = .ok d ∧
      l[i]? = some (ToBeHashed.mk .txMerkleLeaf (hash (txString d.tx.tx) ++ hash (stibString s)))
  | [], l, hp => by
    simp only [merkleLeaves, Res.ok.injEq] at hp
    subst hp
    exact ⟨rfl, fun i s hs => by simp at hs⟩
  | s :: p, l, hp => by
    rw [merkleLeaves] at hp
    obtain ⟨d, hd, hp⟩ := Res.bind_eq_ok.1 hp
    obtain ⟨lp, hlp, hp⟩ := Res.bind_eq_ok.1 hp
    have hd : decodeSignedTx tbl h s = .ok d := by
      revert hd
      cases decodeSignedTx tbl h s <;> simp
    simp only [Res.ok.injEq] at hp
    subst hp
    obtain ⟨h1, h2⟩ := leaves_get hlp
    refine ⟨by simp [h1], fun i s' hs => ?_⟩
    cases i with
    | zero =>
      simp only [List.getElem?_cons_zero, Option.some.injEq] at hs
      subst hs
      exact ⟨d, hd, rfl⟩
    | succ i =>
      rw [List.getElem?_cons_succ] at hs ⊢
      exact h2 i s' hs

theorem array_of_leaves {hash : Bytes → Bytes} {tbl : Protocols} {h : BlockHeader} :
    ∀ {p : List (Stib ApplyData)} {l : List ToBeHashed}, merkleLeaves (blockEnv hash adCodec) tbl h p = .ok l →
    txMerkleArray (blockEnv hash adCodec) tbl h p = .ok l
  | [], l, hp => by
    simp only [merkleLeaves, Res.ok.injEq] at hp
    subst hp
    rfl
  | s :: p, l, hp => by
    rw [merkleLeaves] at hp
    obtain ⟨d, hd, hp⟩ := Res.bind_eq_ok.1 hp
    obtain ⟨lp, hlp, hp⟩ := Res.bind_eq_ok.1 hp
    have hd : decodeSignedTx tbl h s = .ok d := by
      revert hd
      cases decodeSignedTx tbl h s <;> simp
    simp only [Res.ok.injEq] at hp
    subst hp
    rw [txMerkleArray, hd, Res.ok_bind, array_of_leaves hlp, Res.ok_bind]

/-- **C154**, every transaction can be shown: for a block whose contents match its header (under a protocol with a Merkle
commitment) and any places of it, there is a proof, made from the block, that the verifier accepts against the root in the
header for the transactions stored at these places. -/
theorem C154_can_be_shown (hash : Bytes → Bytes) (tbl : Protocols) (b : Block.Block ApplyData) (p : Params)
    (hp : lookup tbl b.header.upgradeState.current = some p) (hm : p.paysetCommit = .merkle)
    (hc : contentsMatchHeader (blockEnv hash adCodec) tbl b = .ok true) (hn : b.payset.length ≤ 2 ^ 64)
    (claims : List InclusionClaim) (hne : claims ≠ []) (hnd : (claims.map (·.pos)).Nodup)
    (htrue : ∀ c ∈ claims, b.payset[c.pos]? = some c.stib ∧
      ∃ d, decodeSignedTx tbl b.header c.stib = .ok d ∧ d.tx.tx = c.tx) :
    ∃ array proof, txMerkleArray (blockEnv hash adCodec) tbl b.header b.payset = .ok array ∧
      prove hash (fromArray hash array) (claims.map (·.pos)) = .ok proof ∧
      verify hash b.header.body.txRoot (claimed hash claims) proof = .ok () := by
  obtain ⟨l, l1, l2⟩ := merkle_leaves_ok hp hm (matches_root hc)
  obtain ⟨hlen, hget⟩ := leaves_get l1
  have hfst : (claimed hash claims).map Prod.fst = claims.map (·.pos) := by
    rw [claimed, List.map_map]; rfl
  obtain ⟨proof, r, h1, h2, h3⟩ := C07_proofs_verify hash l (by rw [hlen]; exact hn) (claims.map (·.pos))
    (by simpa using hne)
    (by
      intro i hi
      obtain ⟨c, hc, rfl⟩ := List.mem_map.1 hi
      rw [hlen]
      exact (List.getElem?_eq_some_iff.1 (htrue c hc).1).1)
    (claimed hash claims) (by rw [hfst]; exact hnd) (fun p => by rw [hfst])
    (by
      intro e he
      obtain ⟨c, hc, rfl⟩ := List.mem_map.1 he
      obtain ⟨hs, d, hd, ht⟩ := htrue c hc
      obtain ⟨d', hd', hl⟩ := hget _ _ hs
      rw [hd] at hd'
      injection hd' with hd'
      subst hd'
      refine ⟨_, hl, ?_⟩
      rw [← ht]; rfl)
  have hr : r = b.header.body.txRoot := by
    have := h2.symm.trans l2
    injection this
  exact ⟨l, proof, array_of_leaves l1, h1, by rw [← hr]; exact h3⟩

/-- **C154**, nothing else can be shown: if the verifier accepts claims against the root in the header of a block whose
contents match, then at each claimed place of the block there is an entry with the claimed signed transaction and effects
and the claimed number of flags, which decodes to the claimed transaction, unless the strings hashed for the block and for
the proof show a collision or a preimage of the zero digest. -/
theorem C154_nothing_else (hash : Bytes → Bytes) (hH : ∀ x, (hash x).length = 32) (tbl : Protocols)
    (b : Block.Block ApplyData) (p : Params)
    (hp : lookup tbl b.header.upgradeState.current = some p) (hm : p.paysetCommit = .merkle)
    (hh : b.header.body.genesisId.length < u32Lim ∧ utf8 b.header.body.genesisId = true ∧
      b.header.body.genesisHash.length = 32)
    (hty : ∀ s ∈ b.payset, StibTyped s) (hc : contentsMatchHeader (blockEnv hash adCodec) tbl b = .ok true)
    (claims : List InclusionClaim) (hcl : ∀ c ∈ claims, TxTyped sizesOnly c.tx ∧ StibTyped c.stib)
    (proof : List Bytes) (hpl : ∀ h ∈ proof, h.length = 32)
    (hv : verify hash b.header.body.txRoot (claimed hash claims) proof = .ok ()) :
    (∀ c ∈ claims, ∃ s d, b.payset[c.pos]? = some s ∧ s.tx = c.stib.tx ∧
      [s.hasGenesisId, s.hasGenesisHash].count true = [c.stib.hasGenesisId, c.stib.hasGenesisHash].count true ∧
      decodeSignedTx tbl b.header s = .ok d ∧ d.tx.tx = c.tx) ∨
    HashBroken hash (commitStrings hash tbl b.header b.payset)
      (claimStrings hash claims ++ verifyLog hash (claimed hash claims) proof) := by
  obtain ⟨l, l1, l2⟩ := merkle_leaves_ok hp hm (matches_root hc)
  obtain ⟨hlen, hget⟩ := leaves_get l1
  have htree : ∀ x ∈ treeStrings hash l, x ∈ commitStrings hash tbl b.header b.payset := by
    intro x hx
    rw [commitStrings, l1]
    exact List.mem_append_right _ hx
  have key := C08_binding hash hH l
    (claims.map fun c => (c.pos, ⟨.txMerkleLeaf, hash (txString c.tx) ++ hash (stibString c.stib)⟩)) proof _ hpl
    (leaf_ids l1) (by
      intro c hc
      obtain ⟨c, _, rfl⟩ := List.mem_map.1 hc
      simp) l2 (by rw [List.map_map]; exact hv)
  simp only [List.map_map] at key
  rcases key with key | key
  · by_cases hb : HashBroken hash (commitStrings hash tbl b.header b.payset)
      (claimStrings hash claims ++ verifyLog hash (claimed hash claims) proof)
    · exact Or.inr hb
    refine Or.inl fun c hc => ?_
    have hk := key _ (List.mem_map.2 ⟨c, hc, rfl⟩)
    simp only at hk
    have hpos : c.pos < b.payset.length := by
      rw [← hlen]
      exact (List.getElem?_eq_some_iff.1 hk).1
    obtain ⟨d, hd, hl⟩ := hget c.pos _ (List.getElem?_eq_getElem hpos)
    have hmem : b.payset[c.pos] ∈ b.payset := List.getElem_mem _
    rw [hk] at hl
    injection hl with hl
    injection hl with _ hl
    obtain ⟨e1, e2⟩ := List.append_inj hl ((hH _).trans (hH _).symm)
    have hes : entryStrings tbl b.header b.payset[c.pos] = [txString d.tx.tx, stibString b.payset[c.pos]] := by
      rw [entryStrings, hd]; rfl
    have hin : ∀ x ∈ [txString d.tx.tx, stibString b.payset[c.pos]], x ∈ commitStrings hash tbl b.header b.payset := by
      intro x hx
      rw [commitStrings]
      refine List.mem_append_left _ (List.mem_cons_of_mem _ (List.mem_flatMap.2 ⟨_, hmem, ?_⟩))
      rw [hes]; exact hx
    have hse : ∀ x ∈ [txString c.tx, stibString c.stib],
        x ∈ claimStrings hash claims ++ verifyLog hash (claimed hash claims) proof :=
      fun x hx => List.mem_append_left _ (List.mem_append_right _ (List.mem_flatMap.2 ⟨c, hc, hx⟩))
    have t1 : txString d.tx.tx = txString c.tx := by
      by_contra hne
      exact hb (Or.inl ⟨_, hin _ (by simp), _, hse _ (List.mem_cons_self ..), hne, e1.symm⟩)
    have t2 : stibString b.payset[c.pos] = stibString c.stib := by
      by_contra hne
      exact hb (Or.inl ⟨_, hin _ (by simp), _, hse _ (by simp), hne, e2.symm⟩)
    have hdt := decoded_typed (hty _ hmem) hh hd
    have u1 := txMP_inj hdt (hcl c hc).1 (enc_inj (fits_tx hdt) (fits_tx (hcl c hc).1) (List.append_cancel_left t1))
    have u2 := (stibMP_eq_iff (hty _ hmem) (hcl c hc).2).1
      (enc_inj (fits_stib (hty _ hmem)) (fits_stib (hcl c hc).2) (List.append_cancel_left t2))
    have hcount : ∀ s : Stib ApplyData, [s.hasGenesisId, s.hasGenesisHash].count true = flagCount s := by
      intro s
      cases h1 : s.hasGenesisId <;> cases h2 : s.hasGenesisHash <;> simp [flagCount, h1, h2]
    exact ⟨_, d, List.getElem?_eq_getElem hpos, u2.1, by rw [hcount, hcount]; exact u2.2, hd, u1⟩
  · right
    have hsub : ∀ y, y ∈ List.map ((fun c => c.2.id.bytes ++ c.2.data) ∘ fun c : InclusionClaim =>
        (c.pos, (⟨.txMerkleLeaf, hash (txString c.tx) ++ hash (stibString c.stib)⟩ : ToBeHashed))) claims ++
        verifyLog hash (claimed hash claims) proof →
        y ∈ claimStrings hash claims ++ verifyLog hash (claimed hash claims) proof := by
      intro y hy
      rcases List.mem_append.1 hy with hy | hy
      · exact List.mem_append_left _ (List.mem_append_left _ hy)
      · exact List.mem_append_right _ hy
    rcases key with ⟨x, hx, y, hy, e⟩ | ⟨y, hy, e⟩
    · exact Or.inl ⟨x, htree x hx, y, hsub y hy, e⟩
    · exact Or.inr ⟨y, hsub y hy, e⟩

/-- **C154**, with nothing but a digest: a header received from anybody will do for checking claims, if it has the digest of
the header of the block. -/
theorem C154_by_digest (hash : Bytes → Bytes) (hH : ∀ x, (hash x).length = 32) (tbl : Protocols)
    (b : Block.Block ApplyData) (p : Params)
    (hp : lookup tbl b.header.upgradeState.current = some p) (hm : p.paysetCommit = .merkle)
    (hbt : HeaderBodyTyped b.header.body) (hu : utf8 b.header.body.genesisId = true)
    (hty : ∀ s ∈ b.payset, StibTyped s) (hc : contentsMatchHeader (blockEnv hash adCodec) tbl b = .ok true)
    (received : BlockHeader) (hrt : HeaderBodyTyped received.body)
    (hd : headerHash (blockEnv hash adCodec) received = headerHash (blockEnv hash adCodec) b.header)
    (claims : List InclusionClaim) (hcl : ∀ c ∈ claims, TxTyped sizesOnly c.tx ∧ StibTyped c.stib)
    (proof : List Bytes) (hpl : ∀ h ∈ proof, h.length = 32)
    (hv : verify hash received.body.txRoot (claimed hash claims) proof = .ok ()) :
    (∀ c ∈ claims, ∃ s d, b.payset[c.pos]? = some s ∧ decodeSignedTx tbl b.header s = .ok d ∧ d.tx.tx = c.tx) ∨
    HashBroken hash ((HashId.blockHeader.bytes ++ enc (headerMP received.body)) :: commitStrings hash tbl b.header b.payset)
      ((HashId.blockHeader.bytes ++ enc (headerMP b.header.body)) ::
        (claimStrings hash claims ++ verifyLog hash (claimed hash claims) proof)) := by
  rcases C82_digest_concrete_partial adCodec hash received b.header hrt hbt hd with e | ⟨e1, e2⟩
  · rw [e] at hv
    rcases C154_nothing_else hash hH tbl b p hp hm ⟨hbt.genesisId, hu, hbt.genesisHash⟩ hty hc claims hcl proof hpl hv with h | h
    · left
      intro c hc
      obtain ⟨s, d, h1, _, _, h2, h3⟩ := h c hc
      exact ⟨s, d, h1, h2, h3⟩
    · right
      rcases h with ⟨x, hx, y, hy, h⟩ | ⟨y, hy, h⟩
      · exact Or.inl ⟨x, List.mem_cons_of_mem _ hx, y, List.mem_cons_of_mem _ hy, h⟩
      · exact Or.inr ⟨y, List.mem_cons_of_mem _ hy, h⟩
  · exact Or.inr (Or.inl ⟨_, List.mem_cons_self .., _, List.mem_cons_self .., e1, e2⟩)

/-! ## Cases -/

/-- The transaction of the case, as the block stores it. -/
def toyEntry : Stib ApplyData := ⟨⟨toySigned (toyTransfer 5), .default⟩, true, false⟩

/-- The transaction of the case, as it was sent. -/
def toyIncluded : Transaction :=
  { toyTransfer 5 with header := { (toyTransfer 5).header with genesisId := [103], genesisHash := List.replicate 32 3 } }

theorem toyEntry_typed : StibTyped toyEntry := ⟨toySigned_typed (toyTransfer_typed _ 5 (by decide)), default_typed⟩

theorem toyEntry_decodes (r : Bytes) :
    ∃ d, decodeSignedTx builtin (toyBlockHeader .v29 r) toyEntry = .ok d ∧ d.tx.tx = toyIncluded := by
  obtain ⟨p, h, hp⟩ : ∃ p, lookup builtin .v29 = some p ∧
      (p.paysetCommit, p.supportSignedTxInBlock, p.requireGenesisHash) = (.merkle, true, true) := by
    have hp : (lookup builtin .v29).map (fun p => (p.paysetCommit, p.supportSignedTxInBlock, p.requireGenesisHash)) =
        some (.merkle, true, true) := by decide +kernel
    cases h : lookup builtin .v29 with
    | none => rw [h] at hp; cases hp
    | some p => rw [h] at hp; exact ⟨p, rfl, by simpa using hp⟩
  simp only [Prod.mk.injEq] at hp
  have hz : Block.zeroHash = List.replicate 32 0 := rfl
  rw [decodeSignedTx, show lookup builtin (toyBlockHeader .v29 r).upgradeState.current = some p from h]
  simp only [Res.ofOption_some, Res.ok_bind, hp, not_true_eq_false, if_false]
  rw [if_neg (by decide), if_neg (by decide), if_neg (by decide)]
  refine ⟨_, rfl, ?_⟩
  simp [toyEntry, toyIncluded, toySigned, toyBlockHeader]

/-- A block with one transaction: a proof for it is accepted, and (the other direction) what is accepted is in the block. -/
example (hash : Bytes → Bytes) (hH : ∀ x, (hash x).length = 32) :
    ∃ r proof, verify hash r (claimed hash [⟨0, toyIncluded, toyEntry⟩]) proof = .ok () ∧
      ∀ t, TxTyped sizesOnly t → ∀ proof', (∀ h ∈ proof', h.length = 32) →
        verify hash r (claimed hash [⟨0, t, toyEntry⟩]) proof' = .ok () →
        t = toyIncluded ∨ HashBroken hash (commitStrings hash builtin (toyBlockHeader .v29 r) [toyEntry])
          (claimStrings hash [⟨0, t, toyEntry⟩] ++ verifyLog hash (claimed hash [⟨0, t, toyEntry⟩]) proof') := by
  obtain ⟨p, h, hm⟩ : ∃ p, lookup builtin .v29 = some p ∧ p.paysetCommit = .merkle := by
    have hp : (lookup builtin .v29).map (·.paysetCommit) = some .merkle := by decide +kernel
    cases h : lookup builtin .v29 with
    | none => rw [h] at hp; cases hp
    | some p => rw [h] at hp; exact ⟨p, rfl, by simpa using hp⟩
  obtain ⟨r, hr⟩ : ∃ r, contentsMatchHeader (blockEnv hash adCodec) builtin ⟨toyBlockHeader .v29 r, [toyEntry]⟩ = .ok true := by
    have hds : ∀ r, ∃ d, decodePaysetFlat builtin (toyBlockHeader .v29 r) [toyEntry] = .ok d := by
      intro r
      obtain ⟨d, hd, _⟩ := toyEntry_decodes r
      rw [decodePaysetFlat, hd, Res.ok_bind]
      exact ⟨_, rfl⟩
    obtain ⟨ds, hd0⟩ := hds zero32
    obtain ⟨r, h1, _⟩ := (C77_answers_partial (blockEnv hash adCodec) builtin ⟨toyBlockHeader .v29 zero32, [toyEntry]⟩ p h ds hd0).2 hm
    refine ⟨r, ?_⟩
    obtain ⟨r', h2, h3⟩ := (C77_answers_partial (blockEnv hash adCodec) builtin ⟨toyBlockHeader .v29 r, [toyEntry]⟩ p h ds hd0).2 hm
    rw [h3]
    have : r = r' := Res.ok.inj (h1.symm.trans h2)
    subst this
    simp [toyBlockHeader]
  obtain ⟨array, proof, _, _, hv⟩ := C154_can_be_shown hash builtin ⟨toyBlockHeader .v29 r, [toyEntry]⟩ p h hm hr
    (by simp) [⟨0, toyIncluded, toyEntry⟩] (by simp) (by simp) (by
      intro c hc
      rw [List.mem_singleton] at hc
      subst hc
      exact ⟨rfl, toyEntry_decodes r⟩)
  refine ⟨r, proof, hv, fun t ht proof' hl hv' => ?_⟩
  rcases C154_nothing_else hash hH builtin ⟨toyBlockHeader .v29 r, [toyEntry]⟩ p h hm ⟨show 1 < u32Lim by decide, show utf8 [103] = true by decide, show (List.replicate 32 (3 : UInt8)).length = 32 by decide⟩
    (by intro s hs; rw [List.mem_singleton] at hs; subst hs; exact toyEntry_typed) hr [⟨0, t, toyEntry⟩]
    (by intro c hc; rw [List.mem_singleton] at hc; subst hc; exact ⟨ht, toyEntry_typed⟩) proof' hl hv' with e | e
  · left
    obtain ⟨s, d, h1, _, _, h2, h3⟩ := e _ (List.mem_singleton.2 rfl)
    obtain ⟨d', hd', e'⟩ := toyEntry_decodes r
    simp only [List.getElem?_cons_zero, Option.some.injEq] at h1
    subst h1
    have : d = d' := Res.ok.inj (h2.symm.trans hd')
    exact h3.symm.trans (by rw [this, e'])
  · exact Or.inr e

end Verif.Props
