import Verif.Props.Codec
/-!
# The transaction root of a block (C78)
-/

namespace Verif.Props
open Verif Verif.Msgpack Verif.Codec Verif.Tx Verif.Block Verif.HashId Verif.Consensus Verif.MerkleArray

/-! ## Merkle roots -/

theorem hashes_eq (H : Bytes → Bytes) : ∀ (a b : List ToBeHashed), a.map (hashObj H) = b.map (hashObj H) →
    a = b ∨ ∃ x ∈ a, ∃ y ∈ b, hashRep x ≠ hashRep y ∧ H (hashRep x) = H (hashRep y)
  | [], [], _ => Or.inl rfl
  | [], _ :: _, h => by simp at h
  | _ :: _, [], h => by simp at h
  | x :: a, y :: b, h => by
    simp only [List.map_cons, List.cons.injEq] at h
    by_cases e : hashRep x = hashRep y
    · rcases hashes_eq H a b h.2 with h2 | ⟨x', hx, y', hy, h2⟩
      · left; rw [C14_domain_separation _ _ e, h2]
      · exact Or.inr ⟨x', by simp [hx], y', by simp [hy], h2⟩
    · exact Or.inr ⟨x, by simp, y, by simp, e, h.1⟩

theorem root_ok_mem (H : Bytes → Bytes) (a : List ToBeHashed) (ha : a ≠ []) :
    ∃ s ∈ treeStrings H a, root (fromArray H a) = .ok (H s) := by
  obtain ⟨top, h1, h2, h3⟩ := root_levels H (a.map (hashObj H)) (by simpa using ha)
  match top, h2 with
  | [r], _ =>
    obtain ⟨s, hs, e⟩ := layer_hashed H a _ (List.mem_of_getElem? h1) r (by simp)
    exact ⟨s, hs, by rw [e]; exact h3⟩

/-- C78: the root of a tree determines the whole array, its length included, unless the hash fails on the explicit
strings hashed for the two trees (a collision, or an input that hashes to the zero digest). Leaves must not carry the tag
of inner nodes. -/
theorem C78_root_binds_array (H : Bytes → Bytes) (hH : ∀ x, (H x).length = 32) (a b : List ToBeHashed)
    (ha : ∀ o ∈ a, o.id ≠ .merkleArrayNode) (hb : ∀ o ∈ b, o.id ≠ .merkleArrayNode)
    (h : root (fromArray H a) = root (fromArray H b)) :
    a = b ∨ HashBroken H (treeStrings H a ++ treeStrings H b) (treeStrings H a ++ treeStrings H b) := by
  have zero : ∀ s ∈ treeStrings H a ++ treeStrings H b, H s = List.replicate 32 0 →
      HashBroken H (treeStrings H a ++ treeStrings H b) (treeStrings H a ++ treeStrings H b) :=
    fun s hs e => Or.inr ⟨s, hs, e⟩
  have empty : root (fromArray H []) = .ok (List.replicate 32 0) := (C07_root_spec H []).1 rfl
  have higher : ∀ (c d : List ToBeHashed), c ≠ [] → (∀ o ∈ c, o.id ≠ .merkleArrayNode) →
      c.map (hashObj H) ∈ (levelsFrom H (d.map (hashObj H))).tail →
      ∃ x ∈ treeStrings H c, ∃ y ∈ treeStrings H d, x ≠ y ∧ H x = H y := by
    intro c d hc hid hm
    obtain ⟨L, hL, e⟩ := tail_levels H _ _ hm
    match c, hc with
    | o :: c, _ =>
      rw [layerUp_map, List.map_cons] at e
      match hp : pairStrings L, e with
      | s :: ps, e =>
        simp only [List.map_cons, List.cons.injEq] at e
        have hs : s ∈ pairStrings L := by rw [hp]; simp
        refine ⟨hashRep o, List.mem_append_left _ (by simp), s,
          List.mem_append_right _ (List.mem_flatMap.2 ⟨L, hL, hs⟩), ?_, e.1⟩
        intro he
        obtain ⟨l, r, hlr⟩ := pairStrings_form L s hs
        rw [hlr, pairRep] at he
        have := C14_domain_separation _ _ he
        exact hid o (by simp) (by rw [this])
      | [], e => simp at e
  by_cases ea : a = [] <;> by_cases eb : b = []
  · left; rw [ea, eb]
  · right
    obtain ⟨s, hs, e⟩ := root_ok_mem H b eb
    rw [ea, empty, e] at h
    exact zero s (List.mem_append_right _ hs) (Res.ok.inj h).symm
  · right
    obtain ⟨s, hs, e⟩ := root_ok_mem H a ea
    rw [eb, empty, e] at h
    exact zero s (List.mem_append_left _ hs) (Res.ok.inj h)
  · have hlen : ∀ c : List ToBeHashed, ∀ h ∈ c.map (hashObj H), h.length = 32 := by
      intro c h hh
      obtain ⟨o, _, rfl⟩ := List.mem_map.1 hh
      exact hH _
    rcases roots_eq hH _ (a.map (hashObj H)) (b.map (hashObj H)) rfl (by simpa using ea) (by simpa using eb)
      (hlen a) (hlen b) h with h | h | h | h
    · rcases hashes_eq H a b h with h | ⟨x, hx, y, hy, h1, h2⟩
      · exact Or.inl h
      · exact Or.inr (Or.inl ⟨_, List.mem_append_left _ (List.mem_append_left _ (List.mem_map.2 ⟨x, hx, rfl⟩)), _,
          List.mem_append_right _ (List.mem_append_left _ (List.mem_map.2 ⟨y, hy, rfl⟩)), h1, h2⟩)
    · obtain ⟨x, hx, y, hy, h1, h2⟩ := higher a b ea ha h
      exact Or.inr (Or.inl ⟨x, List.mem_append_left _ hx, y, List.mem_append_right _ hy, h1, h2⟩)
    · obtain ⟨x, hx, y, hy, h1, h2⟩ := higher b a eb hb h
      exact Or.inr (Or.inl ⟨x, List.mem_append_right _ hx, y, List.mem_append_left _ hy, h1, h2⟩)
    · rcases h with ⟨x, hx, y, hy, h1, h2⟩ | ⟨L, hL, hz⟩
      · exact Or.inr (Or.inl ⟨x, List.mem_append_left _ (List.mem_append_right _ hx), y,
          List.mem_append_right _ (List.mem_append_right _ hy), h1, h2⟩)
      · right
        rcases List.mem_append.1 hL with hL | hL
        · obtain ⟨s, hs, e⟩ := layer_hashed H a L hL _ hz
          exact zero s (List.mem_append_left _ hs) e
        · obtain ⟨s, hs, e⟩ := layer_hashed H b L hL _ hz
          exact zero s (List.mem_append_right _ hs) e

/-! ## Paysets -/

/-- The strings hashed for one entry of a Merkle payset commitment: the transaction and its stored form. -/
def entryStrings (tbl : Protocols) (h : BlockHeader) (s : Stib ApplyData) : List Bytes :=
  match decodeSignedTx tbl h s with
  | .ok a => [HashId.transaction.bytes ++ enc (txMP a.tx.tx), HashId.signedTxInBlock.bytes ++ enc (stibMP adCodec s)]
  | _ => []

/-- All strings hashed for the commitment to a payset. -/
def commitStrings (hash : Bytes → Bytes) (tbl : Protocols) (h : BlockHeader) (p : List (Stib ApplyData)) : List Bytes :=
  (HashId.paysetFlat.bytes ++ enc (paysetMP adCodec p)) :: p.flatMap (entryStrings tbl h) ++
  (match merkleLeaves (blockEnv hash adCodec) tbl h p with
    | .ok l => treeStrings hash l
    | _ => [])

/-- What decoding does to the parts of an entry other than the genesis fields. -/
theorem decode_shape {AD : Type} {tbl : Protocols} {h : BlockHeader} {s : Stib AD} {a : Stad AD}
    (hd : decodeSignedTx tbl h s = .ok a) :
    a = { s.tx with tx := { s.tx.tx with tx := a.tx.tx } } ∧
    ∃ i g, a.tx.tx = { s.tx.tx.tx with header := { s.tx.tx.tx.header with genesisId := i, genesisHash := g } } ∧
      (i = s.tx.tx.tx.header.genesisId ∨ i = h.body.genesisId) ∧
      (g = s.tx.tx.tx.header.genesisHash ∨ g = h.body.genesisHash) := by
  rw [decodeSignedTx] at hd
  obtain ⟨p, _, hd⟩ := Res.bind_eq_ok.1 hd
  split at hd
  · simp only [Res.ok.injEq] at hd
    subst hd
    exact ⟨rfl, _, _, rfl, Or.inl rfl, Or.inl rfl⟩
  · split at hd
    · simp at hd
    · split at hd
      · simp at hd
      · split at hd
        · simp at hd
        · simp only [Res.ok.injEq] at hd
          subst hd
          refine ⟨rfl, _, _, rfl, ?_, ?_⟩
          · split <;> simp
          · split <;> simp

theorem decoded_typed {tbl : Protocols} {h : BlockHeader} {s : Stib ApplyData} {a : Stad ApplyData}
    (hs : StibTyped s) (hh : h.body.genesisId.length < u32Lim ∧ utf8 h.body.genesisId = true ∧ h.body.genesisHash.length = 32)
    (hd : decodeSignedTx tbl h s = .ok a) : TxTyped sizesOnly a.tx.tx := by
  obtain ⟨_, i, g, e, hi, hg⟩ := decode_shape hd
  have ht := hs.1.tx
  have h1 := ht.header
  rw [e]
  refine ⟨⟨h1.sender, h1.fee, h1.firstValid, h1.lastValid, h1.note, ?_, ?_, h1.group, h1.lease, h1.rekeyTo,
    ?_⟩, ht.fields⟩
  · rcases hi with rfl | rfl
    · exact h1.genesisId
    · exact hh.1
  · rcases hg with rfl | rfl
    · exact h1.genesisHash
    · exact hh.2.2
  · rcases hi with rfl | rfl
    · exact h1.genesisIdText
    · exact hh.2.1

/-- Two stored entries are the same up to which flag is set, and decode to the same transaction. -/
def SameEntry (tbl : Protocols) (h : BlockHeader) (s t : Stib ApplyData) : Prop :=
  s.tx = t.tx ∧ flagCount s = flagCount t ∧ ∃ d, decodeSignedTx tbl h s = .ok d ∧ decodeSignedTx tbl h t = .ok d

theorem leaves_bind {hash : Bytes → Bytes} (hH : ∀ x, (hash x).length = 32) {tbl : Protocols} {h : BlockHeader}
    (hh : h.body.genesisId.length < u32Lim ∧ utf8 h.body.genesisId = true ∧ h.body.genesisHash.length = 32) :
    ∀ (p q : List (Stib ApplyData)) (l : List ToBeHashed), (∀ s ∈ p, StibTyped s) → (∀ s ∈ q, StibTyped s) →
    merkleLeaves (blockEnv hash adCodec) tbl h p = .ok l → merkleLeaves (blockEnv hash adCodec) tbl h q = .ok l →
    List.Forall₂ (SameEntry tbl h) p q ∨
    ∃ x ∈ p.flatMap (entryStrings tbl h), ∃ y ∈ q.flatMap (entryStrings tbl h), x ≠ y ∧ hash x = hash y
  | [], [], _, _, _, _, _ => Or.inl List.Forall₂.nil
  | [], t :: q, l, _, _, hp, hq => by
    simp only [merkleLeaves, Res.ok.injEq] at hp
    rw [merkleLeaves] at hq
    obtain ⟨_, _, hq⟩ := Res.bind_eq_ok.1 hq
    obtain ⟨_, _, hq⟩ := Res.bind_eq_ok.1 hq
    simp [← hp] at hq
  | s :: p, [], l, _, _, hp, hq => by
    simp only [merkleLeaves, Res.ok.injEq] at hq
    rw [merkleLeaves] at hp
    obtain ⟨_, _, hp⟩ := Res.bind_eq_ok.1 hp
    obtain ⟨_, _, hp⟩ := Res.bind_eq_ok.1 hp
    simp [← hq] at hp
  | s :: p, t :: q, l, tp, tq, hp, hq => by
    rw [merkleLeaves] at hp hq
    obtain ⟨d, hd, hp⟩ := Res.bind_eq_ok.1 hp
    obtain ⟨lp, hlp, hp⟩ := Res.bind_eq_ok.1 hp
    obtain ⟨e, he, hq⟩ := Res.bind_eq_ok.1 hq
    obtain ⟨lq, hlq, hq⟩ := Res.bind_eq_ok.1 hq
    have hd : decodeSignedTx tbl h s = .ok d := by
      revert hd
      cases decodeSignedTx tbl h s <;> simp
    have he : decodeSignedTx tbl h t = .ok e := by
      revert he
      cases decodeSignedTx tbl h t <;> simp
    simp only [Res.ok.injEq] at hp hq
    rw [← hp] at hq
    simp only [List.cons.injEq, merkleLeaf, ToBeHashed.mk.injEq, true_and] at hq
    obtain ⟨h1, rfl⟩ := hq
    have hlen : (txId (blockEnv hash adCodec) e.tx.tx).length = (txId (blockEnv hash adCodec) d.tx.tx).length := by
      rw [txId, txId]
      exact (hH _).trans (hH _).symm
    obtain ⟨h1, h2⟩ := List.append_inj h1 hlen
    have ms := decoded_typed (tp s (by simp)) hh hd
    have mt := decoded_typed (tq t (by simp)) hh he
    have es : entryStrings tbl h s = [HashId.transaction.bytes ++ enc (txMP d.tx.tx),
        HashId.signedTxInBlock.bytes ++ enc (stibMP adCodec s)] := by rw [entryStrings, hd]
    have et : entryStrings tbl h t = [HashId.transaction.bytes ++ enc (txMP e.tx.tx),
        HashId.signedTxInBlock.bytes ++ enc (stibMP adCodec t)] := by rw [entryStrings, he]
    rcases C83_tx_id_binds adCodec hash _ _ ms mt h1.symm with h1 | h1
    · by_cases c : HashId.signedTxInBlock.bytes ++ enc (stibMP adCodec s) = HashId.signedTxInBlock.bytes ++ enc (stibMP adCodec t)
      · have c := (stibMP_eq_iff (tp s (by simp)) (tq t (by simp))).1
          (enc_inj (fits_stib (tp s (by simp))) (fits_stib (tq t (by simp))) (List.append_cancel_left c))
        have hde : d = e := by
          rw [(decode_shape hd).1, (decode_shape he).1, c.1, h1]
        rcases leaves_bind hH hh p q _ (fun x hx => tp x (by simp [hx])) (fun x hx => tq x (by simp [hx])) hlp hlq with ih | ih
        · exact Or.inl (List.Forall₂.cons ⟨c.1, c.2, d, hd, by rw [hde]; exact he⟩ ih)
        · obtain ⟨x, hx, y, hy, ih⟩ := ih
          exact Or.inr ⟨x, by rw [List.flatMap_cons]; exact List.mem_append_right _ hx, y,
            by rw [List.flatMap_cons]; exact List.mem_append_right _ hy, ih⟩
      · exact Or.inr ⟨_, by rw [List.flatMap_cons, es]; simp, _, by rw [List.flatMap_cons, et]; simp, c, h2.symm⟩
    · exact Or.inr ⟨_, by rw [List.flatMap_cons, es]; simp, _, by rw [List.flatMap_cons, et]; simp, h1⟩

theorem leaf_ids {AD : Type} {env : Env AD} {tbl : Protocols} {h : BlockHeader} : ∀ {p : List (Stib AD)} {l : List ToBeHashed},
    merkleLeaves env tbl h p = .ok l → ∀ o ∈ l, o.id ≠ .merkleArrayNode
  | [], l, hp => by
    simp only [merkleLeaves, Res.ok.injEq] at hp
    simp [← hp]
  | s :: p, l, hp => by
    rw [merkleLeaves] at hp
    obtain ⟨d, _, hp⟩ := Res.bind_eq_ok.1 hp
    obtain ⟨lp, hlp, hp⟩ := Res.bind_eq_ok.1 hp
    simp only [Res.ok.injEq] at hp
    rw [← hp]
    intro o ho
    rcases List.mem_cons.1 ho with rfl | ho
    · simp [merkleLeaf]
    · exact leaf_ids hlp o ho

/-- Matching contents: the commitment is the transaction root. -/
theorem matches_root {AD : Type} {env : Env AD} {tbl : Protocols} {b : Block.Block AD}
    (h : contentsMatchHeader env tbl b = .ok true) : paysetCommit env tbl b = .ok b.header.body.txRoot := by
  rw [contentsMatchHeader] at h
  cases hc : paysetCommit env tbl b with
  | ok r => rw [hc] at h; simp at h; rw [h]
  | err e => rw [hc] at h; simp at h
  | panic => rw [hc] at h; simp at h

theorem merkle_leaves_ok {AD : Type} {env : Env AD} {tbl : Protocols} {b : Block.Block AD} {p : Params} {r : Bytes}
    (hp : lookup tbl b.header.upgradeState.current = some p) (hm : p.paysetCommit = .merkle)
    (h : paysetCommit env tbl b = .ok r) :
    ∃ l, merkleLeaves env tbl b.header b.payset = .ok l ∧ root (fromArray env.hash l) = .ok r := by
  rw [paysetCommit, hp, Res.ofOption_some, Res.ok_bind, hm] at h
  simp only at h
  obtain ⟨l, h1, h2⟩ := Res.bind_eq_ok.1 h
  exact ⟨l, h1, h2⟩

/-- C78 for Merkle commitments: two paysets that match the same header agree entry by entry on the signed transaction, the
apply data and the number of flags, and decode to the same transactions, unless the hash fails on the explicit strings
hashed for the two. -/
theorem C78_merkle_binds (hash : Bytes → Bytes) (hH : ∀ x, (hash x).length = 32) (tbl : Protocols) (h : BlockHeader)
    (hh : h.body.genesisId.length < u32Lim ∧ utf8 h.body.genesisId = true ∧ h.body.genesisHash.length = 32) (p : Params)
    (hp : lookup tbl h.upgradeState.current = some p) (hm : p.paysetCommit = .merkle)
    (P Q : List (Stib ApplyData)) (tP : ∀ s ∈ P, StibTyped s) (tQ : ∀ s ∈ Q, StibTyped s)
    (mP : contentsMatchHeader (blockEnv hash adCodec) tbl ⟨h, P⟩ = .ok true)
    (mQ : contentsMatchHeader (blockEnv hash adCodec) tbl ⟨h, Q⟩ = .ok true) :
    List.Forall₂ (fun s t => s.tx = t.tx ∧
      [s.hasGenesisId, s.hasGenesisHash].count true = [t.hasGenesisId, t.hasGenesisHash].count true ∧
      ∃ d, decodeSignedTx tbl h s = .ok d ∧ decodeSignedTx tbl h t = .ok d) P Q ∨
    HashBroken hash (commitStrings hash tbl h P ++ commitStrings hash tbl h Q)
      (commitStrings hash tbl h P ++ commitStrings hash tbl h Q) := by
  obtain ⟨l, l1, l2⟩ := merkle_leaves_ok (b := ⟨h, P⟩) hp hm (matches_root mP)
  obtain ⟨m, m1, m2⟩ := merkle_leaves_ok (b := ⟨h, Q⟩) hp hm (matches_root mQ)
  simp only at l1 m1
  have cP : ∀ x ∈ treeStrings hash l, x ∈ commitStrings hash tbl h P := by
    intro x hx
    rw [commitStrings, l1]
    exact List.mem_append_right _ hx
  have cQ : ∀ x ∈ treeStrings hash m, x ∈ commitStrings hash tbl h Q := by
    intro x hx
    rw [commitStrings, m1]
    exact List.mem_append_right _ hx
  have eP : ∀ (R : List (Stib ApplyData)), ∀ x ∈ R.flatMap (entryStrings tbl h), x ∈ commitStrings hash tbl h R := by
    intro R x hx
    rw [commitStrings]
    exact List.mem_append_left _ (List.mem_cons_of_mem _ hx)
  have hb : ∀ x ∈ treeStrings hash l ++ treeStrings hash m, x ∈ commitStrings hash tbl h P ++ commitStrings hash tbl h Q := by
    intro x hx
    rcases List.mem_append.1 hx with hx | hx
    · exact List.mem_append_left _ (cP x hx)
    · exact List.mem_append_right _ (cQ x hx)
  rcases C78_root_binds_array hash hH l m (leaf_ids l1) (leaf_ids m1) (l2.trans m2.symm) with e | e
  · subst e
    rcases leaves_bind hH hh P Q l tP tQ l1 m1 with e | ⟨x, hx, y, hy, e⟩
    · left
      refine e.imp ?_
      intro s t hst
      refine ⟨hst.1, ?_, hst.2.2⟩
      have hc : ∀ s : Stib ApplyData, [s.hasGenesisId, s.hasGenesisHash].count true = flagCount s := by
        intro s
        cases h1 : s.hasGenesisId <;> cases h2 : s.hasGenesisHash <;> simp [flagCount, h1, h2]
      rw [hc, hc]; exact hst.2.1
    · exact Or.inr (Or.inl ⟨x, List.mem_append_left _ (eP P x hx), y, List.mem_append_right _ (eP Q y hy), e⟩)
  · right
    rcases e with ⟨x, hx, y, hy, e⟩ | ⟨y, hy, e⟩
    · exact Or.inl ⟨x, hb x hx, y, hb y hy, e⟩
    · exact Or.inr ⟨y, hb y hy, e⟩

theorem decode_flag {AD : Type} {tbl : Protocols} {h : BlockHeader} {p : Params} {s : Stib AD} {d : Stad AD}
    (hp : lookup tbl h.upgradeState.current = some p) (hs : p.supportSignedTxInBlock = true)
    (hr : p.requireGenesisHash = true) (hd : decodeSignedTx tbl h s = .ok d) : s.hasGenesisHash = false := by
  rw [decodeSignedTx, hp] at hd
  simp only [Res.ofOption_some, Res.ok_bind, hs, not_true_eq_false, if_false] at hd
  by_contra hc
  have hc : s.hasGenesisHash = true := by simpa using hc
  split at hd
  · simp at hd
  · split at hd
    · simp at hd
    · rw [if_pos ⟨hr, hc⟩] at hd
      simp at hd

theorem paysets_eq {AD : Type} {tbl : Protocols} {h : BlockHeader} {p : Params}
    (hp : lookup tbl h.upgradeState.current = some p) (hs : p.supportSignedTxInBlock = true)
    (hr : p.requireGenesisHash = true) {s t : Stib AD} (h1 : s.tx = t.tx)
    (h2 : [s.hasGenesisId, s.hasGenesisHash].count true = [t.hasGenesisId, t.hasGenesisHash].count true)
    (hds : ∃ d, decodeSignedTx tbl h s = .ok d) (hdt : ∃ d, decodeSignedTx tbl h t = .ok d) : s = t := by
  obtain ⟨d, hd⟩ := hds
  obtain ⟨e, he⟩ := hdt
  have a := decode_flag hp hs hr hd
  have b := decode_flag hp hs hr he
  obtain ⟨s1, s2, s3⟩ := s
  obtain ⟨t1, t2, t3⟩ := t
  simp only at h1 h2 a b
  subst h1 a b
  cases s2 <;> cases t2 <;> simp_all

/-- The rows of the built-in table that matter for the commitment. -/
def commitRow (p : Params) : Bool :=
  (p.paysetCommit != .merkle || (p.supportSignedTxInBlock && p.requireGenesisHash))

theorem builtin_commit (v : Version) (p : Params) (h : lookup builtin v = some p) (hm : p.paysetCommit = .merkle) :
    p.supportSignedTxInBlock = true ∧ p.requireGenesisHash = true := by
  have rows : builtin.all (fun e => commitRow e.2) = true := by decide +kernel
  have hrow := List.all_eq_true.1 rows (v, p) ((lookup_eq_some builtin_nodup v p).1 h)
  simp only [commitRow, hm] at hrow
  simpa using hrow

/-- C78 for the built-in protocols with a Merkle commitment (v26 and later): a header determines the payset that matches
it, unless the hash fails on the explicit strings hashed for the two paysets. -/
theorem C78_builtin_merkle_binds (hash : Bytes → Bytes) (hH : ∀ x, (hash x).length = 32) (h : BlockHeader)
    (hh : h.body.genesisId.length < u32Lim ∧ utf8 h.body.genesisId = true ∧ h.body.genesisHash.length = 32) (p : Params)
    (hp : lookup builtin h.upgradeState.current = some p) (hm : p.paysetCommit = .merkle)
    (P Q : List (Stib ApplyData)) (tP : ∀ s ∈ P, StibTyped s) (tQ : ∀ s ∈ Q, StibTyped s)
    (mP : contentsMatchHeader (blockEnv hash adCodec) builtin ⟨h, P⟩ = .ok true)
    (mQ : contentsMatchHeader (blockEnv hash adCodec) builtin ⟨h, Q⟩ = .ok true) :
    P = Q ∨ HashBroken hash (commitStrings hash builtin h P ++ commitStrings hash builtin h Q)
      (commitStrings hash builtin h P ++ commitStrings hash builtin h Q) := by
  obtain ⟨hs, hr⟩ := builtin_commit _ p hp hm
  rcases C78_merkle_binds hash hH builtin h hh p hp hm P Q tP tQ mP mQ with e | e
  · left
    rw [← List.forall₂_eq_eq_eq]
    refine e.imp ?_
    rintro s t ⟨h1, h2, d, hd, he⟩
    exact paysets_eq hp hs hr h1 h2 ⟨d, hd⟩ ⟨d, he⟩
  · exact Or.inr e

/-- Decoding a whole payset: every entry decodes. -/
theorem decode_all {AD : Type} {tbl : Protocols} {h : BlockHeader} : ∀ {p : List (Stib AD)} {l : List (Stad AD)},
    decodePaysetFlat tbl h p = .ok l → ∀ s ∈ p, ∃ d, decodeSignedTx tbl h s = .ok d
  | [], _, _ => by simp
  | s :: p, l, hd => by
    rw [decodePaysetFlat] at hd
    obtain ⟨a, h1, hd⟩ := Res.bind_eq_ok.1 hd
    obtain ⟨b, h2, _⟩ := Res.bind_eq_ok.1 hd
    intro x hx
    rcases List.mem_cons.1 hx with rfl | hx
    · exact ⟨a, h1⟩
    · exact decode_all h2 x hx

/-- C78 for flat commitments: under a protocol that strips the genesis fields and requires the genesis hash (v16 to v25),
a header determines the decodable payset that matches it, unless two explicit strings collide. Missing: v11 to v15, where
the hash is not required; and protocols that do not strip, where the flags are not determined. -/
theorem C78_flat_binds_partial (hash : Bytes → Bytes) (tbl : Protocols) (h : BlockHeader) (p : Params)
    (hp : lookup tbl h.upgradeState.current = some p) (hf : p.paysetCommit = .flat)
    (hs : p.supportSignedTxInBlock = true) (hr : p.requireGenesisHash = true)
    (P Q : List (Stib ApplyData)) (tP : PaysetTyped P) (tQ : PaysetTyped Q)
    (dP : ∃ l, decodePaysetFlat tbl h P = .ok l) (dQ : ∃ l, decodePaysetFlat tbl h Q = .ok l)
    (mP : contentsMatchHeader (blockEnv hash adCodec) tbl ⟨h, P⟩ = .ok true)
    (mQ : contentsMatchHeader (blockEnv hash adCodec) tbl ⟨h, Q⟩ = .ok true) :
    P = Q ∨ (HashId.paysetFlat.bytes ++ enc (paysetMP adCodec P) ≠ HashId.paysetFlat.bytes ++ enc (paysetMP adCodec Q) ∧
      hash (HashId.paysetFlat.bytes ++ enc (paysetMP adCodec P)) = hash (HashId.paysetFlat.bytes ++ enc (paysetMP adCodec Q))) := by
  have commit : ∀ R : List (Stib ApplyData), contentsMatchHeader (blockEnv hash adCodec) tbl ⟨h, R⟩ = .ok true →
      hash (HashId.paysetFlat.bytes ++ enc (paysetMP adCodec R)) = h.body.txRoot := by
    intro R hR
    have := matches_root hR
    rw [paysetCommit, hp, Res.ofOption_some, Res.ok_bind, hf] at this
    exact Res.ok.inj this
  by_cases c : HashId.paysetFlat.bytes ++ enc (paysetMP adCodec P) = HashId.paysetFlat.bytes ++ enc (paysetMP adCodec Q)
  · left
    have e := (paysetMP_eq_iff tP.2 tQ.2).1 (enc_inj (fits_payset tP) (fits_payset tQ) (List.append_cancel_left c))
    obtain ⟨lP, dP⟩ := dP
    obtain ⟨lQ, dQ⟩ := dQ
    have aP := decode_all dP
    have aQ := decode_all dQ
    clear c tP tQ dP dQ mP mQ commit lP lQ
    have hc : ∀ s : Stib ApplyData, [s.hasGenesisId, s.hasGenesisHash].count true = flagCount s := by
      intro s
      cases h1 : s.hasGenesisId <;> cases h2 : s.hasGenesisHash <;> simp [flagCount, h1, h2]
    induction P generalizing Q with
    | nil => cases Q with
      | nil => rfl
      | cons => simp at e
    | cons s P ih => cases Q with
      | nil => simp at e
      | cons t Q =>
        simp only [List.map_cons, List.cons.injEq, Prod.mk.injEq] at e
        rw [ih Q e.2 (fun x hx => aP x (by simp [hx])) (fun x hx => aQ x (by simp [hx])),
          paysets_eq hp hs hr e.1.1 (by rw [hc, hc]; exact e.1.2) (aP s (by simp)) (aQ t (by simp))]
  · exact Or.inr ⟨c, by rw [commit P mP, commit Q mQ]⟩

/-- C78 is violated under v11 to v15: two different paysets, that decode to different transactions (one with the genesis
id and without the genesis hash, one the other way round), have the same commitment under every hash. -/
theorem C78_flat_ambiguous (hash : Bytes → Bytes) (h : BlockHeader)
    (hv : h.upgradeState.current ∈ [Version.v11, .v12, .v13, .v14, .v15])
    (hid : h.body.genesisId ≠ []) (t : SignedTx) (ad : ApplyData) (h1 : t.tx.header.genesisId = [])
    (h2 : t.tx.header.genesisHash = List.replicate 32 0) :
    ∃ d d' : List (Stad ApplyData), d ≠ d' ∧
      decodePaysetFlat builtin h [⟨⟨t, ad⟩, true, false⟩] = .ok d ∧
      decodePaysetFlat builtin h [⟨⟨t, ad⟩, false, true⟩] = .ok d' ∧
      ∃ r, paysetCommit (blockEnv hash adCodec) builtin ⟨h, [⟨⟨t, ad⟩, true, false⟩]⟩ = .ok r ∧
        paysetCommit (blockEnv hash adCodec) builtin ⟨h, [⟨⟨t, ad⟩, false, true⟩]⟩ = .ok r := by
  have rows : ∀ v ∈ [Version.v11, .v12, .v13, .v14, .v15], (lookup builtin v).map
      (fun p => (p.paysetCommit, p.supportSignedTxInBlock, p.requireGenesisHash)) = some (.flat, true, false) := by
    decide +kernel
  have hrow := rows _ hv
  cases hp : lookup builtin h.upgradeState.current with
  | none => rw [hp] at hrow; simp at hrow
  | some p =>
    rw [hp] at hrow
    simp only [Option.map_some, Option.some.injEq, Prod.mk.injEq] at hrow
    obtain ⟨r1, r2, r3⟩ := hrow
    have hz : Block.zeroHash = List.replicate 32 0 := rfl
    have dec : ∀ f g : Bool, decodePaysetFlat builtin h [⟨⟨t, ad⟩, f, g⟩] =
        .ok [⟨{ t with tx := { t.tx with header := { t.tx.header with
          genesisId := if f then h.body.genesisId else t.tx.header.genesisId,
          genesisHash := if g then h.body.genesisHash else t.tx.header.genesisHash } } }, ad⟩] := by
      intro f g
      rw [decodePaysetFlat, decodePaysetFlat, decodeSignedTx, hp]
      simp only [Res.ofOption_some, Res.ok_bind, r2, r3, not_true_eq_false, if_false, h1, h2, ne_eq, hz, Bool.false_eq_true,
        false_and, false_or]
    refine ⟨_, _, ?_, dec true false, dec false true, hash (hashRep ⟨.paysetFlat, enc (paysetMP adCodec [⟨⟨t, ad⟩, true, false⟩])⟩), ?_, ?_⟩
    · intro e
      simp only [List.cons.injEq, and_true, Stad.mk.injEq, SignedTx.mk.injEq, Transaction.mk.injEq, Header.mk.injEq,
        Bool.false_eq_true, if_true, if_false] at e
      rw [h1] at e
      exact hid (by tauto)
    · rw [paysetCommit, hp, Res.ofOption_some, Res.ok_bind, r1]; rfl
    · rw [paysetCommit, hp, Res.ofOption_some, Res.ok_bind, r1]
      simp only [paysetFlat, blockEnv, paysetMP]
      rfl

/-! ## Cases -/

/-- A header under the given protocol with the given transaction root. -/
def toyBlockHeader (v : Version) (root : Bytes) : BlockHeader :=
  ⟨⟨5, zero32, zero32, root, 10, [103], List.replicate 32 3, RewardsState.default, UpgradeVote.default, 0, none⟩,
    { UpgradeState.default with current := v }⟩

/-- The hypotheses of `C78_builtin_merkle_binds` are met by the empty payset under v29, with the zero root. -/
example (hash : Bytes → Bytes) :
    contentsMatchHeader (blockEnv hash adCodec) builtin ⟨toyBlockHeader .v29 (List.replicate 32 0), []⟩ = .ok true := by
  have hp : (lookup builtin .v29).map (·.paysetCommit) = some .merkle := by decide +kernel
  cases h : lookup builtin .v29 with
  | none => rw [h] at hp; simp at hp
  | some p =>
    rw [h] at hp
    simp only [Option.map_some, Option.some.injEq] at hp
    rw [contentsMatchHeader, paysetCommit, show lookup builtin (toyBlockHeader .v29 (List.replicate 32 0)).upgradeState.current = some p from h,
      Res.ofOption_some, Res.ok_bind, hp]
    simp only [merkleLeaves, Res.ok_bind]
    rw [(C07_root_spec _ []).1 rfl]
    rfl

/-- They are met by every decodable payset, for the header that carries its commitment. -/
example (hash : Bytes → Bytes) (p : Params) (h : lookup builtin .v29 = some p) :
    ∃ r, contentsMatchHeader (blockEnv hash adCodec) builtin
      ⟨toyBlockHeader .v29 r, [⟨⟨toySigned (toyTransfer 5), .default⟩, true, false⟩]⟩ = .ok true := by
  have hp : (lookup builtin .v29).map (fun p => (p.paysetCommit, p.supportSignedTxInBlock, p.requireGenesisHash)) =
      some (.merkle, true, true) := by decide +kernel
  rw [h] at hp
  simp only [Option.map_some, Option.some.injEq, Prod.mk.injEq] at hp
  have hz : Block.zeroHash = List.replicate 32 0 := rfl
  have hd : ∀ r, ∃ ds, decodePaysetFlat builtin (toyBlockHeader .v29 r)
      [(⟨⟨toySigned (toyTransfer 5), .default⟩, true, false⟩ : Stib ApplyData)] = .ok ds := by
    intro r
    rw [decodePaysetFlat, decodePaysetFlat, decodeSignedTx, show lookup builtin (toyBlockHeader .v29 r).upgradeState.current = some p from h]
    simp only [Res.ofOption_some, Res.ok_bind, hp, not_true_eq_false, if_false]
    rw [if_neg (by decide), if_neg (by decide), if_neg (by simp)]
    exact ⟨_, rfl⟩
  obtain ⟨ds, hds⟩ := hd zero32
  obtain ⟨r, hr, _⟩ := (C77_answers_partial (blockEnv hash adCodec) builtin
    ⟨toyBlockHeader .v29 zero32, [⟨⟨toySigned (toyTransfer 5), .default⟩, true, false⟩]⟩ p h ds hds).2 hp.1
  have hds' : decodePaysetFlat builtin (toyBlockHeader .v29 r)
      [(⟨⟨toySigned (toyTransfer 5), .default⟩, true, false⟩ : Stib ApplyData)] = .ok ds := hds
  obtain ⟨r', hr', hc⟩ := (C77_answers_partial (blockEnv hash adCodec) builtin
    ⟨toyBlockHeader .v29 r, [⟨⟨toySigned (toyTransfer 5), .default⟩, true, false⟩]⟩ p h ds hds').2 hp.1
  refine ⟨r, ?_⟩
  rw [hc]
  have : r' = r := by
    rw [hr] at hr'
    exact (Res.ok.inj hr').symm
  rw [this]
  simp [toyBlockHeader]

/-- The case for `C78_root_binds_array`: with a hash that only pads, two arrays of different length. -/
example : (∀ o ∈ [(⟨.payload, [1]⟩ : ToBeHashed), ⟨.payload, [2]⟩], o.id ≠ .merkleArrayNode) ∧
    (∀ o ∈ [(⟨.payload, [1]⟩ : ToBeHashed), ⟨.payload, [2]⟩, ⟨.payload, [2]⟩], o.id ≠ .merkleArrayNode) := by decide

/-- A case of `C78_merkle_binds` and `C78_builtin_merkle_binds`: whatever fits the header of an empty block is empty. -/
example (hash : Bytes → Bytes) (hH : ∀ x, (hash x).length = 32) (Q : List (Stib ApplyData)) (tQ : ∀ s ∈ Q, StibTyped s)
    (mQ : contentsMatchHeader (blockEnv hash adCodec) builtin ⟨toyBlockHeader .v29 (List.replicate 32 0), Q⟩ = .ok true) :
    Q = [] ∨ HashBroken hash
      (commitStrings hash builtin (toyBlockHeader .v29 (List.replicate 32 0)) [] ++
        commitStrings hash builtin (toyBlockHeader .v29 (List.replicate 32 0)) Q)
      (commitStrings hash builtin (toyBlockHeader .v29 (List.replicate 32 0)) [] ++
        commitStrings hash builtin (toyBlockHeader .v29 (List.replicate 32 0)) Q) := by
  have hp : (lookup builtin .v29).map (·.paysetCommit) = some .merkle := by decide +kernel
  cases h : lookup builtin .v29 with
  | none => rw [h] at hp; cases hp
  | some p =>
    rw [h] at hp
    have hm : p.paysetCommit = .merkle := Option.some.inj hp
    refine (C78_builtin_merkle_binds hash hH (toyBlockHeader .v29 (List.replicate 32 0)) ⟨by decide, by decide, by decide⟩ p h hm [] Q
      (fun _ hs => by cases hs) tQ ?_ mQ).imp Eq.symm id
    rw [contentsMatchHeader, paysetCommit, show lookup builtin (toyBlockHeader .v29 (List.replicate 32 0)).upgradeState.current = some p from h,
      Res.ofOption_some, Res.ok_bind, hm]
    simp only [merkleLeaves, Res.ok_bind]
    rw [(C07_root_spec _ []).1 rfl]
    rfl

/-- A case of `C78_flat_binds_partial`: the same with the other form of commitment. -/
example (hash : Bytes → Bytes) (Q : List (Stib ApplyData)) (tQ : PaysetTyped Q)
    (dQ : ∃ l, decodePaysetFlat [(.v29, { v30Base with paysetCommit := .flat })]
      (toyBlockHeader .v29 (hash (HashId.paysetFlat.bytes ++ enc (paysetMP adCodec [])))) Q = .ok l)
    (mQ : contentsMatchHeader (blockEnv hash adCodec) [(.v29, { v30Base with paysetCommit := .flat })]
      ⟨toyBlockHeader .v29 (hash (HashId.paysetFlat.bytes ++ enc (paysetMP adCodec []))), Q⟩ = .ok true)
    (hc : ∀ x, hash x = hash (HashId.paysetFlat.bytes ++ enc (paysetMP adCodec [])) → x = HashId.paysetFlat.bytes ++ enc (paysetMP adCodec [])) :
    Q = [] := by
  rcases C78_flat_binds_partial hash [(.v29, { v30Base with paysetCommit := .flat })] _ _ rfl rfl (by decide +kernel) (by decide +kernel)
    [] Q ⟨by decide, fun _ h => by cases h⟩ tQ ⟨[], rfl⟩ dQ (by
      rw [contentsMatchHeader, paysetCommit]
      exact congrArg Res.ok (beq_self_eq_true _)) mQ with h | ⟨h, he⟩
  · exact h.symm
  · exact absurd (hc _ he.symm).symm h

end Verif.Props
