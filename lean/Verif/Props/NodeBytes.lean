import Verif.Model.NodeBytes
import Verif.Lemmas.TrieCodec
/-!
# C161, C162: stored nodes of the merkle trie from bytes of any origin
-/

namespace Verif.Props
open Verif Verif.Trie

/-! ## Specification -/

/-- The number that bytes stand for: seven bits each, the first ones lowest. -/
def weigh (bs : Bytes) : Nat := bs.foldr (fun b v => b.toNat % 128 + 128 * v) 0

/-- The bytes of a number below 2^64: at most ten, and exactly the last one has no continuation mark. -/
def IsU64 (bs : Bytes) (v : Nat) : Prop :=
  ∃ pre last, bs = pre ++ [last] ∧ (∀ b ∈ pre, 128 ≤ b.toNat) ∧ last.toNat < 128 ∧ bs.length ≤ 10 ∧ v = weigh bs % 2 ^ 64

/-- An entry of an inner node: the index of the child, the bytes of its identifier, and the identifier. -/
structure ChildEntry where
  index : UInt8
  bytes : Bytes
  id : Nat

/-- The last identifier given for an index. -/
def lastChild (es : List ChildEntry) (b : UInt8) : Option Nat := (es.reverse.find? fun e => e.index = b).map (·.id)

/-- The bytes of a node: the length of the hash, the hash, a mark, and for inner nodes (mark 1) the children up to the
end. After any other mark the bytes are ignored. -/
def IsNodeBytes (buf : Bytes) (n : Node) : Prop :=
  ∃ len mark rest, buf = len ++ n.hash ++ mark :: rest ∧ IsU64 len n.hash.length ∧ n.dirty = false ∧
    ((mark ≠ 1 ∧ n.children = none) ∨
     (mark = 1 ∧ ∃ es : List ChildEntry, (∀ e ∈ es, IsU64 e.bytes e.id) ∧
        rest = es.flatMap (fun e => e.index :: e.bytes) ∧ n.children = some (lastChild es)))

/-! ## Numbers -/

theorem readBits_spec : ∀ (k : Nat) (bs : Bytes) (v : Nat) (rest : Bytes), readBits k bs = some (v, rest) ↔
    ∃ pre last, bs = pre ++ last :: rest ∧ (∀ b ∈ pre, 128 ≤ b.toNat) ∧ last.toNat < 128 ∧ pre.length < k ∧
      v = weigh (pre ++ [last])
  | 0, bs, v, rest => by
    simp only [readBits]
    constructor
    · intro h; cases h
    · rintro ⟨_, _, _, _, _, h, _⟩; omega
  | k + 1, [], v, rest => by
    simp only [readBits]
    constructor
    · intro h; cases h
    · rintro ⟨pre, last, h, _⟩; simp at h
  | k + 1, b :: bs, v, rest => by
    have ih := readBits_spec k bs
    by_cases hb : b.toNat < 128
    · simp only [readBits, if_pos hb]
      constructor
      · intro h
        injection h with h; injection h with h1 h2
        subst h1; subst h2
        refine ⟨[], b, rfl, fun _ h => (nomatch h), hb, Nat.succ_pos _, ?_⟩
        simp only [weigh, List.nil_append, List.foldr_cons, List.foldr_nil]
        omega
      · rintro ⟨pre, last, h1, h2, h3, h4, h5⟩
        cases pre with
        | nil =>
          injection h1 with e1 e2
          subst e1; subst e2
          rw [h5]
          simp only [weigh, List.nil_append, List.foldr_cons, List.foldr_nil]
          congr 2
          omega
        | cons x pre =>
          injection h1 with e1 e2
          have := h2 x List.mem_cons_self
          rw [← e1] at this
          omega
    · simp only [readBits, if_neg hb]
      constructor
      · intro h
        cases hr : readBits k bs with
        | none => rw [hr] at h; cases h
        | some x =>
          obtain ⟨w, r⟩ := x
          rw [hr] at h
          simp only [Option.some.injEq, Prod.mk.injEq] at h
          obtain ⟨rfl, rfl⟩ := h
          obtain ⟨pre, last, e, h2, h3, h4, h5⟩ := (ih w r).1 hr
          refine ⟨b :: pre, last, by rw [e]; rfl, ?_, h3, by simpa using h4, ?_⟩
          · intro y hy
            rcases List.mem_cons.1 hy with rfl | hy
            · omega
            · exact h2 y hy
          · have hb2 := b.toNat_lt
            rw [h5]
            simp only [weigh, List.cons_append, List.foldr_cons]
            omega
      · rintro ⟨pre, last, h1, h2, h3, h4, h5⟩
        cases pre with
        | nil =>
          injection h1 with e1 e2
          rw [e1] at hb
          omega
        | cons x pre =>
          injection h1 with e1 e2
          subst e1
          have := (ih (weigh (pre ++ [last])) rest).2
            ⟨pre, last, e2, fun y hy => h2 y (List.mem_cons_of_mem _ hy), h3, by simpa using h4, rfl⟩
          rw [this]
          simp only [Option.some.injEq, Prod.mk.injEq, and_true]
          have hb2 := b.toNat_lt
          rw [h5]
          simp only [weigh, List.cons_append, List.foldr_cons]
          omega

theorem readU64_spec (bs : Bytes) (v : Nat) (rest : Bytes) :
    readU64 bs = some (v, rest) ↔ ∃ num, bs = num ++ rest ∧ IsU64 num v := by
  rw [readU64, Option.map_eq_some_iff]
  constructor
  · rintro ⟨⟨w, r⟩, h, e⟩
    simp only [Prod.mk.injEq] at e
    obtain ⟨rfl, rfl⟩ := e
    obtain ⟨pre, last, e, h2, h3, h4, rfl⟩ := (readBits_spec 10 bs w r).1 h
    exact ⟨pre ++ [last], by rw [e]; simp, pre, last, rfl, h2, h3, by simp only [List.length_append, List.length_singleton]; omega, rfl⟩
  · rintro ⟨num, e, pre, last, rfl, h2, h3, h4, rfl⟩
    refine ⟨(weigh (pre ++ [last]), rest), (readBits_spec 10 bs _ rest).2 ⟨pre, last, by rw [e]; simp, h2, h3, ?_, rfl⟩, rfl⟩
    simp only [List.length_append, List.length_singleton] at h4
    omega

/-! ## Children -/

/-- Children read one after the other on top of others. -/
def overlay (ch : Children) (es : List ChildEntry) : Children := es.foldl (fun ch e => upd ch e.index (some e.id)) ch

theorem overlay_apply (es : List ChildEntry) : ∀ (ch : Children) (b : UInt8), overlay ch es b = (lastChild es b).orElse fun _ => ch b := by
  induction es with
  | nil => intro ch b; rfl
  | cons e es ih =>
    intro ch b
    rw [overlay, List.foldl_cons, ← overlay, ih]
    rw [lastChild, lastChild, List.reverse_cons, List.find?_append]
    cases es.reverse.find? (fun e => decide (e.index = b)) with
    | some x => rfl
    | none =>
      simp only [Option.map_none, Option.none_or, Option.orElse_none, List.find?_cons, List.find?_nil]
      by_cases h : e.index = b
      · subst h
        simp [upd]
      · have h' : b ≠ e.index := fun e => h e.symm
        simp [upd, h, h']

theorem overlay_none (es : List ChildEntry) : overlay noChildren es = lastChild es := by
  funext b
  rw [overlay_apply]
  cases lastChild es b <;> rfl

theorem readChildren64_spec : ∀ (n : Nat) (bs : Bytes), bs.length ≤ n → ∀ (ch ch' : Children),
    readChildren64 ch bs = some ch' ↔ ∃ es : List ChildEntry, (∀ e ∈ es, IsU64 e.bytes e.id) ∧
      bs = es.flatMap (fun e => e.index :: e.bytes) ∧ ch' = overlay ch es := by
  intro n
  induction n with
  | zero =>
    intro bs hb ch ch'
    have : bs = [] := List.length_eq_zero_iff.1 (by omega)
    subst this
    rw [readChildren64]
    constructor
    · intro h; injection h with h; exact ⟨[], fun _ h => (nomatch h), rfl, h.symm⟩
    · rintro ⟨es, _, h2, h3⟩
      cases es with
      | nil => rw [h3]; rfl
      | cons e es => simp at h2
  | succ n ih =>
    intro bs hb ch ch'
    cases bs with
    | nil =>
      rw [readChildren64]
      constructor
      · intro h; injection h with h; exact ⟨[], fun _ h => (nomatch h), rfl, h.symm⟩
      · rintro ⟨es, _, h2, h3⟩
        cases es with
        | nil => rw [h3]; rfl
        | cons e es => simp at h2
    | cons b bs =>
      rw [readChildren64]
      constructor
      · intro h
        split at h
        · cases h
        · rename_i id rest hr
          have hl := readU64_length hr
          obtain ⟨num, e, hnum⟩ := (readU64_spec _ _ _).1 hr
          simp only [List.length_cons] at hb
          obtain ⟨es, h1, h2, h3⟩ := (ih rest (by omega) _ ch').1 h
          refine ⟨⟨b, num, id⟩ :: es, ?_, by rw [e, h2]; simp, h3⟩
          intro x hx
          rcases List.mem_cons.1 hx with rfl | hx
          · exact hnum
          · exact h1 x hx
      · rintro ⟨es, h1, h2, h3⟩
        cases es with
        | nil => cases h2
        | cons x es =>
          obtain ⟨i, num, id⟩ := x
          rw [List.flatMap_cons, List.cons_append] at h2
          injection h2 with e1 e2
          subst e1
          have hr := (readU64_spec bs id _).2 ⟨num, e2, h1 _ List.mem_cons_self⟩
          have hl := readU64_length hr
          simp only [List.length_cons] at hb
          split
          · rename_i h; rw [hr] at h; cases h
          · rename_i id' rest' h
            rw [hr] at h
            injection h with h; injection h with a c
            subst a; subst c
            exact (ih _ (by omega) _ ch').2 ⟨es, fun y hy => h1 y (List.mem_cons_of_mem _ hy), rfl, h3⟩

/-! ## C161 -/

/-- **C161**: exactly the bytes of nodes are read, as these nodes, up to the memory there is. -/
theorem C161_exact (mem : Nat) (buf : Bytes) (n : Node) :
    deserialize64 mem buf = .ok n ↔ IsNodeBytes buf n ∧ n.hash.length ≤ mem := by
  obtain ⟨dirty, hash, children⟩ := n
  constructor
  · intro h
    rw [deserialize64] at h
    cases hr : readU64 buf with
    | none => rw [hr] at h; cases h
    | some x =>
      obtain ⟨len, rest⟩ := x
      rw [hr] at h
      simp only at h
      obtain ⟨num, e, hnum⟩ := (readU64_spec _ _ _).1 hr
      by_cases hm : mem < len
      · rw [if_pos hm] at h; cases h
      · rw [if_neg hm] at h
        by_cases hlen : rest.length < len
        · rw [if_pos hlen] at h; cases h
        · rw [if_neg hlen] at h
          have hsplit := List.take_append_drop len rest
          cases hd : rest.drop len with
          | nil => rw [hd] at h; cases h
          | cons mark tail =>
            rw [hd] at h hsplit
            simp only at h
            have htl : (rest.take len).length = len := by rw [List.length_take]; omega
            by_cases hmark : mark = 1
            · rw [if_pos hmark] at h
              cases hc : readChildren64 noChildren tail with
              | none => rw [hc] at h; cases h
              | some ch =>
                rw [hc] at h
                injection h with h; injection h with h1 h2 h3
                subst h1; subst h2; subst h3
                obtain ⟨es, a, b, c⟩ := (readChildren64_spec _ tail (Nat.le_refl _) _ ch).1 hc
                refine ⟨⟨num, mark, tail, ?_, by rw [htl]; exact hnum, rfl, .inr ⟨hmark, es, a, b, by rw [c, overlay_none]⟩⟩, ?_⟩
                · rw [e, List.append_assoc, hsplit]
                · simp only [htl]; omega
            · rw [if_neg hmark] at h
              injection h with h; injection h with h1 h2 h3
              subst h1; subst h2; subst h3
              refine ⟨⟨num, mark, tail, ?_, by rw [htl]; exact hnum, rfl, .inl ⟨hmark, rfl⟩⟩, ?_⟩
              · rw [e, List.append_assoc, hsplit]
              · simp only [htl]; omega
  · rintro ⟨⟨num, mark, rest, e, hnum, hd, hc⟩, hm⟩
    simp only at e hnum hd hc hm
    have hr := (readU64_spec buf hash.length (hash ++ mark :: rest)).2 ⟨num, by rw [e, List.append_assoc], hnum⟩
    rw [deserialize64, hr]
    simp only
    rw [if_neg (by omega), if_neg (by simp), List.drop_left, List.take_left]
    rcases hc with ⟨h1, h2⟩ | ⟨h1, es, a, b, c⟩
    · simp only [if_neg h1, hd, h2]
    · simp only
      rw [if_pos h1, (readChildren64_spec _ rest (Nat.le_refl _) noChildren (lastChild es)).2 ⟨es, a, b, (overlay_none es).symm⟩]
      simp only [hd, c]

/-- **C161**: the bytes crash the reader exactly if they start with the length of a hash for which there is no memory,
whether that many bytes follow or not. -/
theorem C161_crash_iff (mem : Nat) (buf : Bytes) :
    deserialize64 mem buf = .panic ↔ ∃ num len rest, buf = num ++ rest ∧ IsU64 num len ∧ mem < len := by
  rw [deserialize64]
  cases hr : readU64 buf with
  | none =>
    simp only
    refine ⟨fun h => (nomatch h), ?_⟩
    rintro ⟨num, len, rest, e, hn, _⟩
    rw [(readU64_spec buf len rest).2 ⟨num, e, hn⟩] at hr
    cases hr
  | some x =>
    obtain ⟨len, rest⟩ := x
    simp only
    constructor
    · intro h
      by_cases hm : mem < len
      · obtain ⟨num, e, hn⟩ := (readU64_spec _ _ _).1 hr
        exact ⟨num, len, rest, e, hn, hm⟩
      · rw [if_neg hm] at h
        split at h
        · cases h
        · split at h
          · cases h
          · split at h
            · split at h <;> cases h
            · cases h
    · rintro ⟨num, len', rest', e, hn, hm⟩
      rw [(readU64_spec buf len' rest').2 ⟨num, e, hn⟩] at hr
      injection hr with hr; injection hr with h1 h2
      rw [← h1, if_pos hm]

/-- C161 is violated: ten bytes that crash the reader on every machine. -/
theorem C161_violated (mem : Nat) (hm : mem < 2 ^ 63) :
    deserialize64 mem [255, 255, 255, 255, 255, 255, 255, 255, 255, 1] = .panic := by
  rw [C161_crash_iff]
  refine ⟨[255, 255, 255, 255, 255, 255, 255, 255, 255, 1], 2 ^ 64 - 1, [], rfl,
    ⟨[255, 255, 255, 255, 255, 255, 255, 255, 255], 1, rfl, by decide, by decide, by decide, by decide +kernel⟩, by omega⟩

theorem weigh_varint (n : Nat) : weigh (varint n) = n := by
  induction n using Nat.strongRecOn with
  | _ n ih =>
    rw [varint]
    split
    · rename_i h
      simp only [weigh, List.foldr_cons, List.foldr_nil, UInt8.toNat_ofNat']
      omega
    · rename_i h
      have hb : (UInt8.ofNat (n % 128 + 128)).toNat = n % 128 + 128 := by rw [UInt8.toNat_ofNat']; omega
      have := ih (n / 128) (by omega)
      rw [weigh] at this ⊢
      rw [List.foldr_cons, this, hb]
      omega

theorem varint_shape : ∀ (k n : Nat), n < 128 ^ (k + 1) → ∃ pre last, varint n = pre ++ [last] ∧ (∀ b ∈ pre, 128 ≤ b.toNat) ∧
    last.toNat < 128 ∧ (varint n).length ≤ k + 1 := by
  intro k
  induction k with
  | zero =>
    intro n h
    rw [varint, if_pos (by omega)]
    refine ⟨[], _, rfl, fun _ h => (nomatch h), ?_, by simp⟩
    rw [UInt8.toNat_ofNat']
    omega
  | succ k ih =>
    intro n h
    rw [varint]
    split
    · rename_i h
      refine ⟨[], _, rfl, fun _ h => (nomatch h), ?_, by simp⟩
      rw [UInt8.toNat_ofNat']
      omega
    · rename_i h2
      obtain ⟨pre, last, e, h3, h4, h5⟩ := ih (n / 128) (by
        rw [Nat.pow_succ] at h
        exact Nat.div_lt_of_lt_mul (by rw [Nat.mul_comm]; exact h))
      have hb : (UInt8.ofNat (n % 128 + 128)).toNat = n % 128 + 128 := by rw [UInt8.toNat_ofNat']; omega
      refine ⟨_ :: pre, last, by rw [e]; rfl, ?_, h4, by simpa using h5⟩
      intro b hb'
      rcases List.mem_cons.1 hb' with rfl | hb'
      · omega
      · exact h3 b hb'

theorem isU64_varint {n : Nat} (h : n < 2 ^ 64) : IsU64 (varint n) n := by
  obtain ⟨pre, last, e, h1, h2, h3⟩ := varint_shape 9 n (Nat.lt_of_lt_of_le h (by decide))
  exact ⟨pre, last, e, h1, h2, h3, by rw [weigh_varint, Nat.mod_eq_of_lt h]⟩

/-- The children of a node as entries. -/
def entriesOf (ch : Children) : List ChildEntry := (childList ch).map fun p => ⟨p.1, varint p.2, p.2⟩

theorem lastChild_entriesOf (ch : Children) : lastChild (entriesOf ch) = ch := by
  rw [← overlay_none, overlay, entriesOf, List.foldl_map]
  exact foldl_childList ch

theorem childList_id {ch : Children} {p : UInt8 × Nat} (h : p ∈ childList ch) : ch p.1 = some p.2 := by
  rw [childList, List.mem_filterMap] at h
  obtain ⟨b, _, h⟩ := h
  obtain ⟨id, h1, h2⟩ := Option.map_eq_some_iff.1 h
  rw [← h2]
  exact h1

theorem isNodeBytes_serialize (n : Node) (h1 : n.hash.length < 2 ^ 64)
    (h2 : ∀ ch b id, n.children = some ch → ch b = some id → id < 2 ^ 64) :
    IsNodeBytes n.serialize { n with dirty := false } := by
  obtain ⟨dirty, hash, children⟩ := n
  simp only at h1 h2
  cases children with
  | none => exact ⟨varint hash.length, 0, [], rfl, isU64_varint h1, rfl, .inl ⟨by decide, rfl⟩⟩
  | some ch =>
    refine ⟨varint hash.length, 1, (entriesOf ch).flatMap (fun e => e.index :: e.bytes), ?_, isU64_varint h1, rfl,
      .inr ⟨rfl, entriesOf ch, ?_, rfl, by simp only [lastChild_entriesOf]⟩⟩
    · simp only [Node.serialize, entriesOf, List.flatMap_map]
    · intro e he
      obtain ⟨p, hp, rfl⟩ := List.mem_map.1 he
      exact isU64_varint (h2 ch p.1 p.2 rfl (childList_id hp))

/-- **C161** (and C68 with numbers of 64 bits): what the trie writes is read back. -/
theorem C161_written (mem : Nat) (n : Node) (hm : n.hash.length ≤ mem) (hmem : mem < 2 ^ 63)
    (h2 : ∀ ch b id, n.children = some ch → ch b = some id → id < 2 ^ 64) :
    deserialize64 mem n.serialize = .ok { n with dirty := false } ∧ deserialize n.serialize = some { n with dirty := false } :=
  ⟨(C161_exact mem _ _).2 ⟨isNodeBytes_serialize n (by omega) h2, hm⟩, deserialize_serialize n⟩

/-- C161, what holds: bytes that start with the length of a hash for which there is memory, or with no number at all, are
read or refused. Missing: lengths for which there is none. -/
theorem C161_reported_partial (mem : Nat) (buf : Bytes) (h : ∀ num len rest, buf = num ++ rest → IsU64 num len → len ≤ mem) :
    (∃ n, deserialize64 mem buf = .ok n ∧ IsNodeBytes buf n) ∨ deserialize64 mem buf = .err () ∧ ∀ n, ¬ IsNodeBytes buf n := by
  cases hd : deserialize64 mem buf with
  | ok n => exact .inl ⟨n, rfl, ((C161_exact mem buf n).1 hd).1⟩
  | err e =>
    refine .inr ⟨rfl, fun n hn => ?_⟩
    obtain ⟨num, mark, rest, e1, hnum, _⟩ := id hn
    have := (C161_exact mem buf n).2 ⟨hn, h num _ (n.hash ++ mark :: rest) (by rw [e1, List.append_assoc]) hnum⟩
    rw [hd] at this
    cases this
  | panic =>
    obtain ⟨num, len, rest, e, hn, hlt⟩ := (C161_crash_iff mem buf).1 hd
    have := h num len rest e hn
    omega

/-! ## C162: nodes cut short -/

theorem u64_prefix_free {a b c d : Bytes} {v w : Nat} (ha : IsU64 a v) (hb : IsU64 b w) (h : a ++ c = b ++ d) :
    a = b ∧ c = d ∧ v = w := by
  have h1 := (readU64_spec (a ++ c) v c).2 ⟨a, rfl, ha⟩
  have h2 := (readU64_spec (a ++ c) w d).2 ⟨b, h, hb⟩
  rw [h1] at h2
  injection h2 with h2; injection h2 with h3 h4
  subst h4
  exact ⟨List.append_cancel_right h, rfl, h3⟩

theorem entries_prefix : ∀ (es fs : List ChildEntry) (tail : Bytes), (∀ e ∈ es, IsU64 e.bytes e.id) →
    (∀ e ∈ fs, IsU64 e.bytes e.id) →
    es.flatMap (fun e => e.index :: e.bytes) ++ tail = fs.flatMap (fun e => e.index :: e.bytes) → es <+: fs
  | [], fs, _, _, _, _ => List.nil_prefix
  | e :: es, [], tail, _, _, h => by simp at h
  | e :: es, f :: fs, tail, he, hf, h => by
    simp only [List.flatMap_cons, List.cons_append, List.append_assoc] at h
    injection h with h1 h2
    obtain ⟨a, b, c⟩ := u64_prefix_free (he e List.mem_cons_self) (hf f List.mem_cons_self) h2
    have := entries_prefix es fs tail (fun x hx => he x (List.mem_cons_of_mem _ hx))
      (fun x hx => hf x (List.mem_cons_of_mem _ hx)) b
    obtain ⟨i, n, d⟩ := e
    obtain ⟨i', n', d'⟩ := f
    simp only at h1 a c
    subst h1; subst a; subst c
    exact (List.prefix_cons_inj _).2 this

/-- **C162**, what holds: a stored leaf that is cut short is refused, and what is read from an inner node that is cut
short has its hash and some of its children. Missing: the children that were cut off are not missed. -/
theorem C162_cut_partial (mem : Nat) (n : Node) (hm : n.hash.length ≤ mem) (hmem : mem < 2 ^ 63)
    (hid : ∀ ch b id, n.children = some ch → ch b = some id → id < 2 ^ 64)
    (cut lost : Bytes) (hlost : lost ≠ []) (h : cut ++ lost = n.serialize) :
    deserialize64 mem cut = .err () ∨ ∃ ch sub, n.children = some ch ∧ deserialize64 mem cut = .ok ⟨false, n.hash, some sub⟩ ∧
      ∀ b id, sub b = some id → ch b = some id := by
  obtain ⟨num, mark, rest, e, hnum, _, hc⟩ := isNodeBytes_serialize n (by omega) hid
  simp only at e hnum hc
  cases hd : deserialize64 mem cut with
  | err => exact .inl rfl
  | panic =>
    obtain ⟨num', len, rest', e', hn, hlt⟩ := (C161_crash_iff mem cut).1 hd
    have : num' ++ (rest' ++ lost) = num ++ (n.hash ++ mark :: rest) := by
      rw [← List.append_assoc, ← e', h, e, List.append_assoc]
    have := (u64_prefix_free hn hnum this).2.2
    omega
  | ok m =>
    obtain ⟨⟨num', mark', rest', e', hnum', hdirty, hc'⟩, _⟩ := (C161_exact mem cut m).1 hd
    have hall : num' ++ (m.hash ++ mark' :: (rest' ++ lost)) = num ++ (n.hash ++ mark :: rest) := by
      have : cut ++ lost = num ++ n.hash ++ mark :: rest := by rw [h, e]
      rw [e'] at this
      simpa using this
    obtain ⟨_, h1, h2⟩ := u64_prefix_free hnum' hnum hall
    obtain ⟨h3, h4⟩ := List.append_inj h1 h2
    injection h4 with h5 h6
    refine .inr ?_
    rcases hc with ⟨h7, h8⟩ | ⟨h7, es, h9, h10, h11⟩
    · -- a leaf ends with its mark
      exfalso
      have hser : n.serialize = varint n.hash.length ++ n.hash ++ [0] := by rw [Node.serialize, h8]
      rw [e] at hser
      have hn2 : num ++ (n.hash ++ mark :: rest) = varint n.hash.length ++ (n.hash ++ [0]) := by
        rw [← List.append_assoc, hser, List.append_assoc]
      obtain ⟨_, h12, _⟩ := u64_prefix_free hnum (isU64_varint (by omega)) hn2
      have h13 := List.append_cancel_left h12
      injection h13 with _ h14
      rw [h14] at h6
      exact hlost (List.append_eq_nil_iff.1 h6).2
    · rcases hc' with ⟨h12, _⟩ | ⟨_, fs, h13, h14, h15⟩
      · rw [h5] at h12; exact absurd h7 h12
      · rw [h14, h10] at h6
        have hpre := entries_prefix fs es lost h13 h9 h6
        -- the entries written by the trie have distinct indices
        have hes : es = entriesOf (lastChild es) := by
          have hser : n.serialize = varint n.hash.length ++ (n.hash ++ 1 :: (entriesOf (lastChild es)).flatMap (fun e => e.index :: e.bytes)) := by
            rw [Node.serialize, h11]
            simp only [entriesOf, List.flatMap_map, List.append_assoc]
          have hn2 : num ++ (n.hash ++ mark :: rest) =
              varint n.hash.length ++ (n.hash ++ 1 :: (entriesOf (lastChild es)).flatMap (fun e => e.index :: e.bytes)) := by
            rw [← List.append_assoc, ← e, hser]
          obtain ⟨_, h16, _⟩ := u64_prefix_free hnum (isU64_varint (by omega)) hn2
          have h17 := List.append_cancel_left h16
          injection h17 with _ h18
          rw [h10] at h18
          have hok : ∀ x ∈ entriesOf (lastChild es), IsU64 x.bytes x.id := by
            intro x hx
            obtain ⟨p, hp, rfl⟩ := List.mem_map.1 hx
            exact isU64_varint (hid _ p.1 p.2 h11 (childList_id hp))
          have p1 := entries_prefix es (entriesOf (lastChild es)) [] h9 hok (by rw [List.append_nil, h18])
          have p2 := entries_prefix (entriesOf (lastChild es)) es [] hok h9 (by rw [List.append_nil, h18])
          exact p1.eq_of_length_le p2.length_le
        refine ⟨lastChild es, lastChild fs, h11, ?_, ?_⟩
        · obtain ⟨md, mh, mc⟩ := m
          simp only at hdirty h15 h3
          rw [hdirty, h15, h3]
        · intro b id hb
          rw [lastChild] at hb
          obtain ⟨x, hx1, hx2⟩ := Option.map_eq_some_iff.1 hb
          have hxm : x ∈ fs := List.mem_reverse.1 (List.mem_of_find?_eq_some hx1)
          have hxb : x.index = b := by simpa using List.find?_some hx1
          have hxe : x ∈ entriesOf (lastChild es) := by rw [← hes]; exact hpre.subset hxm
          obtain ⟨p, hp, rfl⟩ := List.mem_map.1 hxe
          have := childList_id hp
          simp only at hxb hx2
          rw [← hxb, ← hx2]
          exact this

/-- C162 is violated: an inner node without its last bytes is another node. -/
theorem C162_violated (mem : Nat) : ∃ (n m : Node) (cut lost : Bytes), lost ≠ [] ∧ cut ++ lost = n.serialize ∧
    deserialize64 mem cut = .ok m ∧ (∃ ch, n.children = some ch ∧ ch 5 = some 7) ∧ (∃ ch, m.children = some ch ∧ ch 5 = none) := by
  refine ⟨⟨false, [], some (upd noChildren 5 (some 7))⟩, ⟨false, [], some noChildren⟩, [0, 1], [5, 7], by simp, ?_, ?_,
    ⟨_, rfl, rfl⟩, ⟨_, rfl, rfl⟩⟩
  · have : childList (upd noChildren 5 (some 7)) = [(5, 7)] := by decide +kernel
    have hv : varint 7 = [7] := by rw [varint]; rfl
    have hv0 : varint 0 = [0] := by rw [varint]; rfl
    simp [Node.serialize, this, hv, hv0]
  · rw [C161_exact]
    exact ⟨⟨[0], 1, [], rfl, ⟨[], 0, rfl, fun _ h => (nomatch h), by decide, by decide, rfl⟩, rfl,
      .inr ⟨rfl, [], fun _ h => (nomatch h), rfl, rfl⟩⟩, Nat.zero_le _⟩

/-- The hypotheses hold for a leaf that is cut after its hash. -/
example : deserialize64 100 [2, 7, 8] = .err () ∧ ([2, 7, 8] : Bytes) ++ [0] = Node.serialize ⟨false, [7, 8], none⟩ := by
  have h : ([2, 7, 8] : Bytes) ++ [0] = Node.serialize ⟨false, [7, 8], none⟩ := by
    have hv : varint 2 = [2] := by rw [varint]; rfl
    simp [Node.serialize, hv]
  refine ⟨?_, h⟩
  rcases C162_cut_partial 100 ⟨false, [7, 8], none⟩ (by decide) (by decide) (fun ch b id h => (nomatch h)) [2, 7, 8] [0] (by simp) h
    with h | ⟨ch, _, h, _⟩
  · exact h
  · cases h

/-- A case of `C161_violated`: a gigabyte of memory. -/
example : deserialize64 (2 ^ 30) [255, 255, 255, 255, 255, 255, 255, 255, 255, 1] = .panic := C161_violated _ (by decide)

/-- A case of `C161_written`: a node with two children. -/
example (ch : Children) (h : ∀ b id, ch b = some id → id < 2 ^ 64) :
    deserialize64 100 (Node.serialize ⟨true, [7, 8], some ch⟩) = .ok ⟨false, [7, 8], some ch⟩ :=
  (C161_written 100 ⟨true, [7, 8], some ch⟩ (show 2 ≤ 100 by decide) (by decide) fun ch' b id hc => by cases hc; exact h b id).1

/-- A case of `C161_reported_partial`: one byte, which starts a number that does not end. -/
example : deserialize64 100 [200] = .err () := by
  refine ((C161_reported_partial 100 [200] ?_).resolve_left ?_).1
  · rintro num len rest he ⟨pre, last, rfl, h1, h2, h3, rfl⟩
    rcases pre with _ | ⟨a, pre⟩
    · simp only [List.nil_append, List.cons_append, List.cons.injEq] at he
      obtain ⟨rfl, _⟩ := he
      exact absurd h2 (by decide)
    · simp at he
  · rintro ⟨n, _, len, mark, rest, he, ⟨pre, last, rfl, _⟩, _⟩
    have := congrArg List.length he
    simp at this
    omega

end Verif.Props
