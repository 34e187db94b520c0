import Verif.Model.TrieSize
import Verif.Props.TrieShape
/-!
# C178: how many bytes the merkle trie stores
-/

namespace Verif.Props
open Verif Verif.Trie

variable {H : Bytes → Bytes}

/-! ## Sizes of single nodes -/

theorem varint_length_le : ∀ (k n : Nat), n < 128 ^ (k + 1) → (varint n).length ≤ k + 1
  | 0, n, h => by rw [varint, if_pos (by simpa using h)]; simp
  | k + 1, n, h => by
    rw [varint]
    split
    · simp
    · have := varint_length_le k (n / 128) (by
        rw [Nat.div_lt_iff_lt_mul (by decide), ← Nat.pow_succ]; exact h)
      simp only [List.length_cons]; omega

theorem varint_id {n : Nat} (h : n < 2 ^ 64) : (varint n).length ≤ 10 :=
  varint_length_le 9 n (Nat.lt_of_lt_of_le h (by decide))

theorem varint_short {n : Nat} (h : n < 16384) : (varint n).length ≤ 2 :=
  varint_length_le 1 n h

theorem varint_pos (n : Nat) : 1 ≤ (varint n).length := by
  rw [varint]; split <;> simp

/-- The part of a stored node besides its children. -/
theorem serialize_leaf_length (d : Bool) (h : Bytes) :
    (Node.serialize ⟨d, h, none⟩).length = (varint h.length).length + h.length + 1 := by
  simp [Node.serialize]; omega

theorem serialize_inner_length (d : Bool) (h : Bytes) (ch : Children) :
    (Node.serialize ⟨d, h, some ch⟩).length =
      (varint h.length).length + h.length + 1 + ((childList ch).map fun p => 1 + (varint p.2).length).sum := by
  simp only [Node.serialize, List.length_append, List.length_cons, List.length_flatMap]
  have : (fun a : UInt8 × Nat => (varint a.2).length + 1) = fun p => 1 + (varint p.2).length := by
    funext p; omega
  rw [this]; omega

/-- The bytes a subtrie takes, counting eleven bytes for the reference to its root, are at most `K` for each of its nodes,
if `K` suffices for a hash or rest of a member together with its length, its kind and such a reference. -/
theorem Rep.size {g path id S F v} (h : Rep H g path id S F v) (M K : Nat) (hK : (varint M).length + M + 12 ≤ K)
    (hmono : ∀ x, x ≤ M → (varint x).length ≤ (varint M).length) (hH : ∀ x, (H x).length ≤ M)
    (hid : ∀ i, F i → i < 2 ^ 64) (hS : ∀ s, S s → path.length + s.length ≤ M) :
    ∃ ids : List Nat, ids.Nodup ∧ (∀ i, i ∈ ids ↔ F i) ∧
      (ids.map fun i => (((g i).map Node.serialize).getD []).length).sum + 11 ≤ ids.length * K := by
  classical
  induction h with
  | leaf path id S F dty suffix hg hS' hF =>
    refine ⟨[id], List.nodup_singleton _, fun i => by rw [hF]; simp, ?_⟩
    have hl : suffix.length ≤ M := by
      have := hS suffix ((hS' _).2 rfl); omega
    simp only [List.map_cons, List.map_nil, List.sum_cons, List.sum_nil, hg, Option.map_some, Option.getD_some,
      serialize_leaf_length, List.length_singleton]
    have := hmono _ hl
    omega
  | node path id S F dty h ch FB VB hg hnil hno hrec hF hidn hdisj h2 hclean hdirty ih =>
    have ih' : ∀ b, ∃ ids : List Nat, ids.Nodup ∧ ∀ c, ch b = some c → (∀ i, i ∈ ids ↔ FB b i) ∧
        (ids.map fun i => (((g i).map Node.serialize).getD []).length).sum + 11 ≤ ids.length * K := by
      intro b
      cases hb : ch b with
      | none => exact ⟨[], List.nodup_nil, by simp⟩
      | some c =>
        obtain ⟨ids, h1, h3, h4⟩ := ih b c hb (fun i hi => hid i ((hF i).2 (Or.inr ⟨b, c, hb, hi⟩)))
          (fun s hs => by have := hS _ hs; simp only [List.length_append, List.length_cons, List.length_nil] at this ⊢; omega)
        exact ⟨ids, h1, fun c' e => by injection e with e; subst e; exact ⟨h3, h4⟩⟩
    choose ids hnd hids using ih'
    have hmem : ∀ p ∈ childList ch, ch p.1 = some p.2 := fun p hp => (mem_childList ch p.1 p.2).1 hp
    refine ⟨id :: (childList ch).flatMap (fun p => ids p.1), ?_, ?_, ?_⟩
    · refine List.nodup_cons.2 ⟨?_, ?_⟩
      · intro hi
        obtain ⟨p, hp, hi⟩ := List.mem_flatMap.1 hi
        exact hidn _ _ (hmem p hp) (((hids _ _ (hmem p hp)).1 _).1 hi)
      · rw [List.nodup_flatMap]
        refine ⟨fun p _ => hnd p.1, ?_⟩
        have hn : (childList ch).Pairwise (fun p q => p.1 ≠ q.1) := by
          have := nodup_childList_fst ch
          rwa [List.Nodup, List.pairwise_map] at this
        refine hn.imp_of_mem ?_
        intro p q hp hq hne i hi hi'
        exact hne (hdisj _ _ _ _ i (hmem p hp) (hmem q hq) (((hids _ _ (hmem p hp)).1 _).1 hi)
          (((hids _ _ (hmem q hq)).1 _).1 hi'))
    · intro i
      rw [hF, List.mem_cons, List.mem_flatMap]
      refine or_congr_right ⟨?_, ?_⟩
      · rintro ⟨p, hp, hi⟩
        exact ⟨p.1, p.2, hmem p hp, ((hids _ _ (hmem p hp)).1 _).1 hi⟩
      · rintro ⟨b, c, hb, hi⟩
        exact ⟨(b, c), (mem_childList ch b c).2 hb, ((hids b c hb).1 _).2 hi⟩
    · have hl : h.length ≤ M := by
        cases dty with
        | false => rw [hclean rfl]; exact hH _
        | true =>
          rw [hdirty rfl]
          obtain ⟨s, _, hs, _⟩ := h2
          have := hS s hs; omega
      have hv := hmono _ hl
      have key : ∀ l : List (UInt8 × Nat), (∀ p ∈ l, ch p.1 = some p.2) →
          (l.map fun p => 1 + (varint p.2).length).sum +
            ((l.flatMap fun p => ids p.1).map fun i => (((g i).map Node.serialize).getD []).length).sum ≤
          (l.flatMap fun p => ids p.1).length * K := by
        intro l
        induction l with
        | nil => intro _; simp
        | cons p l ihl =>
          intro hp
          have h1 := ihl (fun q hq => hp q (List.mem_cons_of_mem _ hq))
          have hpc := hp p List.mem_cons_self
          have h2 := (hids _ _ hpc).2
          have h3 := varint_id (hid p.2 ((hF _).2 (Or.inr ⟨_, _, hpc, (hrec _ _ hpc).mem_root⟩)))
          simp only [List.flatMap_cons, List.map_cons, List.map_append, List.sum_cons, List.sum_append, List.length_append,
            Nat.add_mul] at h1 ⊢
          omega
      have hk := key (childList ch) hmem
      simp only [List.map_cons, List.sum_cons, hg, Option.map_some, Option.getD_some, serialize_inner_length,
        List.length_cons, Nat.add_mul, Nat.one_mul]
      omega

theorem varint_mono : ∀ (y x : Nat), x ≤ y → (varint x).length ≤ (varint y).length := by
  intro y
  induction y using Nat.strongRecOn with
  | _ y ih =>
    intro x h
    rw [varint]
    split
    · exact varint_pos y
    · rename_i hx
      rw [varint.eq_def y, if_neg (by omega)]
      have := ih (y / 128) (by omega) (x / 128) (Nat.div_le_div_right h)
      simp only [List.length_cons]; omega

theorem Rep.hash_le {g path id S F v} (h : Rep H g path id S F v) (M : Nat) (hH : ∀ x, (H x).length ≤ M)
    (hS : ∀ s, S s → path.length + s.length ≤ M) : ∀ i n, F i → g i = some n → n.hash.length ≤ M := by
  induction h with
  | leaf path id S F dty suffix hg hS' hF =>
    intro i n hi hn
    rw [(hF i).1 hi, hg] at hn
    injection hn with hn
    have := hS suffix ((hS' _).2 rfl)
    rw [← hn]; show suffix.length ≤ M; omega
  | node path id S F dty h ch FB VB hg hnil hno hrec hF hidn hdisj h2 hclean hdirty ih =>
    intro i n hi hn
    rcases (hF i).1 hi with rfl | ⟨b, c, hb, hi⟩
    · rw [hg] at hn
      injection hn with hn
      rw [← hn]
      show h.length ≤ M
      cases dty with
      | false => rw [hclean rfl]; exact hH _
      | true =>
        rw [hdirty rfl]
        obtain ⟨s, _, hs, _⟩ := h2
        have := hS s hs; omega
    · exact ih b c hb (fun s hs => by
        have := hS _ hs; simp only [List.length_append, List.length_cons, List.length_nil] at this ⊢; omega) i n hi hn

theorem Rep.child_lt {g path id S F v} (h : Rep H g path id S F v) : ∀ i n ch, F i → g i = some n → n.children = some ch →
    ∀ p ∈ childList ch, F p.2 := by
  induction h with
  | leaf path id S F dty suffix hg hS' hF =>
    intro i n ch hi hn hc
    rw [(hF i).1 hi, hg] at hn
    injection hn with hn
    rw [← hn] at hc; cases hc
  | node path id S F dty h ch FB VB hg hnil hno hrec hF hidn hdisj h2 hclean hdirty ih =>
    intro i n ch' hi hn hc p hp
    rcases (hF i).1 hi with rfl | ⟨b, c, hb, hi⟩
    · rw [hg] at hn
      injection hn with hn
      rw [← hn] at hc
      injection hc with hc
      subst hc
      have hb := (mem_childList ch p.1 p.2).1 hp
      exact (hF _).2 (Or.inr ⟨_, _, hb, (hrec _ _ hb).mem_root⟩)
    · exact (hF _).2 (Or.inr ⟨b, c, hb, ih b c hb i n ch' hi hn hc p hp⟩)

theorem countSome_childList (ch : Children) : ∀ l : List UInt8,
    countSome (l.map ch) = (l.filterMap (fun b => (ch b).map (fun id => (b, id)))).length
  | [] => rfl
  | b :: l => by
    rw [List.map_cons]
    cases hb : ch b with
    | none => rw [countSome, countSome_childList ch l, List.filterMap_cons_none (by rw [hb]; rfl)]
    | some c =>
      rw [countSome, countSome_childList ch l, List.filterMap_cons_some (b := (b, c)) (by rw [hb]; rfl)]; rfl

theorem getChildCount_inner (d : Bool) (h : Bytes) (ch : Children) :
    Node.getChildCount ⟨d, h, some ch⟩ = (childList ch).length := countSome_childList ch allBytes

/-- What both theorems below need of a trie at the end of a history. -/
theorem stored_rep (ops : List TrieOp) {t : Trie} (h : endAny H Trie.new ops = some t) {m : List Bytes}
    (hm : anyMembers H [] 0 ops = some m) :
    t.cache.WF ∧ ((m = [] ∧ ∀ i, t.cache.storage i = none) ∨
      ∃ id F v, Rep H t.cache.cache [] id (fun s => s ∈ m) F v ∧ ∀ i, t.cache.storage i ≠ none ↔ F i) := by
  obtain ⟨m', len, hm', hw, hrep⟩ := (AnyInv.new (H := H) 0).endAny ops h
  rw [hm] at hm'; injection hm' with hm'; subst hm'
  refine ⟨hw, ?_⟩
  cases hroot : t.root with
  | none =>
    rw [hroot] at hrep
    exact Or.inl ⟨hrep.1, fun i => by rw [hw.sync, hrep.2 i]; rfl⟩
  | some id =>
    rw [hroot] at hrep
    obtain ⟨_, F, v, hr, hF⟩ := hrep
    refine Or.inr ⟨id, F, v, hr, fun i => ⟨fun hi => hF i ?_, fun hi => ?_⟩⟩
    · intro e; rw [hw.sync, e] at hi; exact hi rfl
    · obtain ⟨n, hn⟩ := hr.some_of_mem i hi
      rw [hw.sync, hn]; simp

theorem le_sum_of_mem_nat {x : Nat} : ∀ {l : List Nat}, x ∈ l → x ≤ l.sum
  | y :: l, h => by
    rw [List.sum_cons]
    rcases List.mem_cons.1 h with rfl | h
    · omega
    · have := le_sum_of_mem_nat h; omega

/-! ## Theorems -/

/-- **C178**, partial: every stored node fits into `MAX_NODE_SERIALIZED_SIZE` bytes after every history, whatever the set, if
no member is longer than 181 bytes. Missing: longer members (`C178_violated_long`). A hash has at most 181 bytes (it has 32),
and fewer than 2^64 identifiers were handed out (the counter is a `u64`). -/
theorem C178_node_partial (H : Bytes → Bytes) (hH : ∀ x, (H x).length ≤ 181) (ops : List TrieOp) {t : Trie}
    (h : endAny H Trie.new ops = some t) (hn : t.cache.next ≤ 2 ^ 64) {m : List Bytes}
    (hm : anyMembers H [] 0 ops = some m) (hl : ∀ s ∈ m, s.length ≤ 181) (i : Nat) (data : Bytes)
    (hi : t.cache.storage i = some data) : 2 ≤ data.length ∧ data.length ≤ maxNodeSerializedSize := by
  obtain ⟨hw, ⟨_, hno⟩ | ⟨id, F, v, hr, hF⟩⟩ := stored_rep ops h hm
  · rw [hno] at hi; cases hi
  have hFi := (hF i).1 (by rw [hi]; simp)
  obtain ⟨⟨d, x, chs⟩, hg⟩ := hr.some_of_mem i hFi
  have hd : data = Node.serialize ⟨d, x, chs⟩ := by
    have := hw.sync i; rw [hi, hg] at this; injection this
  have hx : x.length ≤ 181 := Rep.hash_le hr 181 hH (fun s hs => by simpa using hl s hs) i _ hFi hg
  have hv := varint_short (n := x.length) (by omega)
  have hp := varint_pos x.length
  subst hd
  unfold maxNodeSerializedSize
  cases chs with
  | none => rw [serialize_leaf_length]; omega
  | some ch =>
    rw [serialize_inner_length]
    have hc : ((childList ch).map fun p => 1 + (varint p.2).length).sum ≤ (childList ch).length * 11 := by
      have : ∀ l : List (UInt8 × Nat), (∀ p ∈ l, (varint p.2).length ≤ 10) →
          (l.map fun p => 1 + (varint p.2).length).sum ≤ l.length * 11 := by
        intro l
        induction l with
        | nil => intro _; simp
        | cons p l ih =>
          intro hl
          have h1 := hl p List.mem_cons_self
          have h2 := ih fun q hq => hl q (List.mem_cons_of_mem _ hq)
          simp only [List.map_cons, List.sum_cons, List.length_cons]
          omega
      exact this _ fun p hp =>
        varint_id (Nat.lt_of_lt_of_le (hr.lt_next hw p.2 (Rep.child_lt hr i _ ch hFi hg rfl p hp)) hn)
    have h256 : (childList ch).length ≤ 256 := by
      unfold childList
      exact (List.length_filterMap_le _ _).trans (by simp [allBytes])
    omega

/-- **C178**, violated: a member of 2998 bytes or more does not fit. -/
theorem C178_violated_long (H : Bytes → Bytes) (d : Bytes) (hd : 2998 ≤ d.length) : ∃ t data,
    endAny H Trie.new [.add d] = some t ∧ t.cache.storage 0 = some data ∧ maxNodeSerializedSize < data.length := by
  refine ⟨_, Node.serialize ⟨false, d, none⟩, rfl, ?_, ?_⟩
  · have : (Node.serialize ⟨false, d, none⟩).isEmpty = false := by simpa using serialize_ne_nil _
    simp [Trie.new, Cache.new, Cache.setNode, storeNode, put, this]
  · rw [serialize_leaf_length]
    have : 2 ≤ (varint d.length).length := by
      rw [varint, if_neg (by omega)]
      have := varint_pos (d.length / 128)
      simp only [List.length_cons]; omega
    unfold maxNodeSerializedSize; omega

/-- **C178**: the size that the storage in memory reports is zero exactly if the set is empty. -/
theorem C178_empty (H : Bytes → Bytes) (ops : List TrieOp) {t : Trie} (h : endAny H Trie.new ops = some t) {m : List Bytes}
    (hm : anyMembers H [] 0 ops = some m) {ids : List Nat} (hi : ∀ i, i ∈ ids ↔ t.cache.storage i ≠ none) :
    currentStorageSize t.cache.storage ids = 0 ↔ m = [] := by
  obtain ⟨hw, ⟨rfl, hno⟩ | ⟨id, F, v, hr, hF⟩⟩ := stored_rep ops h hm
  · have : ids = [] := List.eq_nil_iff_forall_not_mem.2 (fun i h => (hi i).1 h (hno i))
    simp [this, currentStorageSize]
  · have hne : m ≠ [] := by
      obtain ⟨s, hs⟩ := hr.nonempty
      rintro rfl; cases hs
    refine iff_of_false ?_ hne
    have hid := (hi id).2 ((hF id).2 hr.mem_root)
    obtain ⟨n, hn⟩ := hr.some_of_mem id hr.mem_root
    have hs : t.cache.storage id = some n.serialize := by rw [hw.sync, hn]; rfl
    intro h0
    have := le_sum_of_mem_nat (List.mem_map.2 ⟨id, hid, rfl⟩ :
      ((t.cache.storage id).getD []).length ∈ ids.map fun i => ((t.cache.storage i).getD []).length)
    rw [hs] at this
    have h1 := List.length_pos_of_ne_nil (serialize_ne_nil n)
    rw [currentStorageSize] at h0
    simp only [Option.getD_some] at this
    omega

/-- **C178**: the size that the storage in memory reports is at most `M` bytes and the length of `M`, and twelve bytes more,
for each node, if members and hashes have at most `M` bytes. The number of nodes is that of `C142_count`. -/
theorem C178_total (H : Bytes → Bytes) (M : Nat) (hH : ∀ x, (H x).length ≤ M) (ops : List TrieOp) {t : Trie}
    (h : endAny H Trie.new ops = some t) (hn : t.cache.next ≤ 2 ^ 64) {m : List Bytes}
    (hm : anyMembers H [] 0 ops = some m) (hl : ∀ s ∈ m, s.length ≤ M) {ids : List Nat} (hnd : ids.Nodup)
    (hi : ∀ i, i ∈ ids ↔ t.cache.storage i ≠ none) :
    currentStorageSize t.cache.storage ids ≤ (m.length + (forkList m).length) * ((varint M).length + M + 12) := by
  obtain ⟨m', ids', e, hnd', hi', hlen, _⟩ := C142_count H ops h
  rw [hm] at e; injection e with e; subst e
  have hp : ids.Perm ids' := (List.perm_ext_iff_of_nodup hnd hnd').2 fun i => (hi i).trans (hi' i).symm
  rw [← hlen, ← hp.length_eq]
  obtain ⟨hw, ⟨_, hno⟩ | ⟨id, F, v, hr, hF⟩⟩ := stored_rep ops h hm
  · have : ids = [] := List.eq_nil_iff_forall_not_mem.2 (fun i h => (hi i).1 h (hno i))
    simp [this, currentStorageSize]
  · obtain ⟨l, hln, hlF, hsum⟩ := Rep.size hr M _ (Nat.le_refl _) (varint_mono M) hH
      (fun i hi => Nat.lt_of_lt_of_le (hr.lt_next hw i hi) hn) (fun s hs => by simpa using hl s hs)
    have hpl : ids.Perm l := (List.perm_ext_iff_of_nodup hnd hln).2 fun i => (hi i).trans ((hF i).trans (hlF i).symm)
    rw [← hpl.length_eq] at hsum
    have e : currentStorageSize t.cache.storage ids = (l.map fun i => (((t.cache.cache i).map Node.serialize).getD []).length).sum := by
      rw [currentStorageSize, (hpl.map _).sum_nat]
      congr 2
      funext i
      rw [hw.sync]
    omega

/-- **C178** for hashes, the members the trie is made for: at most 45 bytes for each node and 1485 for each member. -/
theorem C178_hashes (H : Bytes → Bytes) (hH : ∀ x, (H x).length = 32) (ops : List TrieOp) {t : Trie}
    (h : endAny H Trie.new ops = some t) (hn : t.cache.next ≤ 2 ^ 64) {m : List Bytes}
    (hm : anyMembers H [] 0 ops = some m) (hl : ∀ s ∈ m, s.length = 32) {ids : List Nat} (hnd : ids.Nodup)
    (hi : ∀ i, i ∈ ids ↔ t.cache.storage i ≠ none) :
    currentStorageSize t.cache.storage ids ≤ 45 * ids.length ∧ currentStorageSize t.cache.storage ids ≤ 1485 * m.length := by
  have h1 := C178_total H 32 (fun x => (hH x).le) ops h hn hm (fun s hs => (hl s hs).le) hnd hi
  obtain ⟨m', ids', e, hnd', hi', hlen, hle⟩ := C142_count H ops h
  rw [hm] at e; injection e with e; subst e
  have hp : ids.Perm ids' := (List.perm_ext_iff_of_nodup hnd hnd').2 fun i => (hi i).trans (hi' i).symm
  have hv : (varint 32).length = 1 := by rw [varint, if_pos (by decide)]; rfl
  rw [hv, ← hlen, ← hp.length_eq] at h1
  have hs : (m.map fun s => s.length + 1).sum = m.length * 33 := by
    rw [List.map_congr_left (g := fun _ => 33) (fun s hs => by rw [hl s hs])]
    simp
  rw [hs, ← hp.length_eq] at hle
  omega

/-- **C178**: the number of children that a node reports is the number of different bytes that follow its string in members;
the node of a member reports none. -/
theorem C178_children (H : Bytes → Bytes) (ops : List TrieOp) {t : Trie} (h : endAny H Trie.new ops = some t) :
    ∃ (m : List Bytes) (name : Nat → Bytes), anyMembers H [] 0 ops = some m ∧ ∀ i n, storedNode t i = some n →
      (name i ∈ m → n.getChildCount = 0) ∧
      (ForkAt (fun s => s ∈ m) (name i) → ∀ bs : List UInt8, bs.Nodup → (∀ b, b ∈ bs ↔ ∃ s, name i ++ b :: s ∈ m) →
        n.getChildCount = bs.length) ∧
      (name i ∈ m ∨ ForkAt (fun s => s ∈ m) (name i)) := by
  obtain ⟨m, name, hm, hs, _⟩ := C142_shape H ops h
  refine ⟨m, name, hm, fun i n hi => ?_⟩
  have hst : t.cache.storage i ≠ none := by
    intro e; rw [storedNode, e] at hi; cases hi
  refine ⟨fun hmem => ?_, fun hf bs hb hbs => ?_, hs.named i hst⟩
  · obtain ⟨n', pos, e, hc, _⟩ := hs.leaf i hst hmem
    rw [hi] at e; injection e with e; subst e
    rw [Node.getChildCount, hc]
  · obtain ⟨n', ch, e, hc, hch⟩ := hs.inner i hst hf
    rw [hi] at e; injection e with e; subst e
    obtain ⟨d, x, c⟩ := n
    cases hc
    rw [getChildCount_inner, ← List.length_map (f := Prod.fst)]
    refine ((List.perm_ext_iff_of_nodup (nodup_childList_fst ch) hb).2 fun b => ?_).length_eq
    rw [hbs, List.mem_map]
    constructor
    · rintro ⟨⟨b', c⟩, hp, rfl⟩
      have hb' := (mem_childList ch b' c).1 hp
      by_contra hno
      have := (hch b').1.2 (fun s hs => hno ⟨s, hs⟩)
      rw [hb'] at this; cases this
    · rintro ⟨s, hs'⟩
      cases hb' : ch b with
      | none => exact absurd hs' ((hch b).1.1 hb' s)
      | some c => exact ⟨(b, c), (mem_childList ch b c).2 hb', rfl⟩

/-- **C178**, violated: a tree of the database reports the size zero, whatever it holds. -/
theorem C178_violated_database (H : Bytes → Bytes) (d : Bytes) : ∃ t,
    endAny H Trie.new [.add d] = some t ∧ anyMembers H [] 0 [.add d] = some [d] ∧ sledStorageSize t.cache.storage = 0 :=
  ⟨_, rfl, rfl, rfl⟩

/-- Two members of three bytes that share two of them, and one that shares none: six nodes. -/
example : ((endAny toyHash Trie.new [.add [1, 2, 3], .add [1, 2, 4], .add [9, 9, 9]]).map fun t => (t.cache.next,
      (List.range 9).filter fun i => (t.cache.storage i).isSome)) = some (8, [1, 2, 3, 4, 6, 7]) ∧
    anyMembers toyHash [] 0 [.add [1, 2, 3], .add [1, 2, 4], .add [9, 9, 9]] = some [[9, 9, 9], [1, 2, 4], [1, 2, 3]] := by
  refine ⟨by decide +kernel, rfl⟩

#guard (endAny toyHash Trie.new [.add [1, 2, 3], .add [1, 2, 4], .add [9, 9, 9]]).map
  (fun t => currentStorageSize t.cache.storage [1, 2, 3, 4, 6, 7]) == some 27

/-- A case of `C178_node_partial`, `C178_empty`, `C178_total` and `C178_children`: three strings of three bytes. -/
example (t : Trie) (h : endAny toyHash Trie.new [.add [1, 2, 3], .add [1, 2, 4], .add [9, 9, 9]] = some t)
    (hn : t.cache.next ≤ 2 ^ 64) (ids : List Nat) (hnd : ids.Nodup) (hi : ∀ i, i ∈ ids ↔ t.cache.storage i ≠ none) :
    (∀ i data, t.cache.storage i = some data → data.length ≤ maxNodeSerializedSize) ∧
    currentStorageSize t.cache.storage ids ≠ 0 ∧
    currentStorageSize t.cache.storage ids ≤ (3 + (forkList [[9, 9, 9], [1, 2, 4], [1, 2, 3]]).length) * (1 + 32 + 12) := by
  have hm : anyMembers toyHash [] 0 [.add [1, 2, 3], .add [1, 2, 4], .add [9, 9, 9]] = some [[9, 9, 9], [1, 2, 4], [1, 2, 3]] := rfl
  have hl : ∀ s ∈ ([[9, 9, 9], [1, 2, 4], [1, 2, 3]] : List Bytes), s.length ≤ 32 := by decide
  have hH : ∀ x, (toyHash x).length ≤ 32 := fun x => by simp [toyHash]
  refine ⟨fun i data hd => (C178_node_partial toyHash (fun x => (hH x).trans (by decide)) _ h hn hm
    (fun s hs => (hl s hs).trans (by decide)) i data hd).2, fun h0 => ?_, ?_⟩
  · have := (C178_empty toyHash _ h hm hi).1 h0
    cases this
  · have := C178_total toyHash 32 hH _ h hn hm hl hnd hi
    simpa [varint] using this

/-- A case of `C178_hashes`: two strings of 32 bytes. -/
example (t : Trie) (h : endAny toyHash Trie.new [.add (List.replicate 32 1), .add (List.replicate 32 2)] = some t)
    (hn : t.cache.next ≤ 2 ^ 64) (ids : List Nat) (hnd : ids.Nodup) (hi : ∀ i, i ∈ ids ↔ t.cache.storage i ≠ none) :
    currentStorageSize t.cache.storage ids ≤ 1485 * 2 :=
  (C178_hashes toyHash (fun x => by simp [toyHash]) _ h hn
    (m := [List.replicate 32 2, List.replicate 32 1]) (by decide +kernel) (by decide) hnd hi).2

/-- A case of `C178_violated_long`. -/
example (H : Bytes → Bytes) : ∃ t data, endAny H Trie.new [.add (List.replicate 3000 7)] = some t ∧
    t.cache.storage 0 = some data ∧ maxNodeSerializedSize < data.length :=
  C178_violated_long H _ (by rw [List.length_replicate]; decide)

end Verif.Props
