import Verif.Lemmas.Msgpack
/-!
# C119: the byte format

The specification is the MessagePack format itself, as a relation between values and byte strings: all markers, all
lengths, no reference to the reader or the writer.
-/

namespace Verif.Props
open Verif Verif.Msgpack Verif.Balance

/-- The number a big endian byte string stands for. -/
def bigEndian : Bytes → Nat
  | [] => 0
  | b :: r => b.toNat * 256 ^ r.length + bigEndian r

mutual
/-- `Repr v p`: the byte string `p` is a MessagePack representation of the value `v`, in any of the forms the format
offers for it. -/
inductive Repr : MP → Bytes → Prop
  | nil : Repr .nil [0xc0]
  | false : Repr (.bool false) [0xc2]
  | true : Repr (.bool true) [0xc3]
  | posFix (n : Nat) (h : n < 128) : Repr (.uint n) [UInt8.ofNat n]
  | uint (m : UInt8) (k : Nat) (d : Bytes) (hm : (m, k) ∈ [((0xcc : UInt8), 1), (0xcd, 2), (0xce, 4), (0xcf, 8)])
      (hd : d.length = k) : Repr (.uint (bigEndian d)) (m :: d)
  | intPos (m : UInt8) (k : Nat) (d : Bytes) (hm : (m, k) ∈ [((0xd0 : UInt8), 1), (0xd1, 2), (0xd2, 4), (0xd3, 8)])
      (hd : d.length = k) (h : 2 * bigEndian d < 256 ^ k) : Repr (.uint (bigEndian d)) (m :: d)
  | negFix (n : Nat) (h : n < 32) : Repr (.neg n) [UInt8.ofNat (0xff - n)]
  | intNeg (m : UInt8) (k : Nat) (d : Bytes) (n : Nat)
      (hm : (m, k) ∈ [((0xd0 : UInt8), 1), (0xd1, 2), (0xd2, 4), (0xd3, 8)]) (hd : d.length = k)
      (h : 256 ^ k ≤ 2 * bigEndian d) (hn : bigEndian d + n + 1 = 256 ^ k) : Repr (.neg n) (m :: d)
  | float (m : UInt8) (b : Bytes) (hm : (m, b.length) ∈ [((0xca : UInt8), 4), (0xcb, 8)]) : Repr (.float b) (m :: b)
  | strFix (s : Bytes) (h : s.length < 32) : Repr (.str s) (UInt8.ofNat (0xa0 + s.length) :: s)
  | str (m : UInt8) (k : Nat) (d s : Bytes) (hm : (m, k) ∈ [((0xd9 : UInt8), 1), (0xda, 2), (0xdb, 4)])
      (hd : d.length = k) (hs : bigEndian d = s.length) : Repr (.str s) (m :: (d ++ s))
  | bin (m : UInt8) (k : Nat) (d s : Bytes) (hm : (m, k) ∈ [((0xc4 : UInt8), 1), (0xc5, 2), (0xc6, 4)])
      (hd : d.length = k) (hs : bigEndian d = s.length) : Repr (.bin s) (m :: (d ++ s))
  | arrFix (l : List MP) (p : Bytes) (h : l.length < 16) (hl : ReprList l p) :
      Repr (.arr l) (UInt8.ofNat (0x90 + l.length) :: p)
  | arr (m : UInt8) (k : Nat) (d : Bytes) (l : List MP) (p : Bytes) (hm : (m, k) ∈ [((0xdc : UInt8), 2), (0xdd, 4)])
      (hd : d.length = k) (hs : bigEndian d = l.length) (hl : ReprList l p) : Repr (.arr l) (m :: (d ++ p))
  | mapFix (n : Nat) (l : List MP) (p : Bytes) (h : n < 16) (hn : l.length = 2 * n) (hl : ReprList l p) :
      Repr (.map l) (UInt8.ofNat (0x80 + n) :: p)
  | map (m : UInt8) (k : Nat) (d : Bytes) (l : List MP) (p : Bytes) (hm : (m, k) ∈ [((0xde : UInt8), 2), (0xdf, 4)])
      (hd : d.length = k) (hs : l.length = 2 * bigEndian d) (hl : ReprList l p) : Repr (.map l) (m :: (d ++ p))
/-- Representations of consecutive values. -/
inductive ReprList : List MP → Bytes → Prop
  | nil : ReprList [] []
  | cons (a : MP) (l : List MP) (p q : Bytes) (ha : Repr a p) (hl : ReprList l q) : ReprList (a :: l) (p ++ q)
end

/-! ## The reader -/

theorem foldl_be (l : Bytes) (a : Nat) :
    l.foldl (fun acc b => acc * 256 + b.toNat) a = a * 256 ^ l.length + bigEndian l := by
  induction l generalizing a with
  | nil => simp [bigEndian]
  | cons b l ih =>
    rw [List.foldl_cons, ih, bigEndian, List.length_cons, Nat.pow_succ, Nat.add_mul, Nat.mul_assoc,
      Nat.mul_comm 256 (256 ^ l.length), Nat.add_assoc]

theorem ofBE_eq (l : Bytes) : ofBE l = bigEndian l := by
  rw [ofBE, foldl_be]; simp

theorem bigEndian_lt (l : Bytes) : bigEndian l < 256 ^ l.length := by
  induction l with
  | nil => simp [bigEndian]
  | cons b l ih =>
    have h1 := b.toNat_lt
    rw [bigEndian, List.length_cons, Nat.pow_succ]
    have : (b.toNat + 1) * 256 ^ l.length ≤ 256 * 256 ^ l.length := Nat.mul_le_mul_right _ (by omega)
    rw [Nat.add_mul, Nat.one_mul] at this
    omega

theorem takeN_some {k : Nat} {bs x r : Bytes} (h : takeN k bs = some (x, r)) : bs = x ++ r ∧ x.length = k := by
  rw [takeN] at h
  split at h
  · cases h
  · rename_i hl
    injection h with h
    injection h with h1 h2
    subst h1 h2
    exact ⟨(List.take_append_drop k bs).symm, by rw [List.length_take]; omega⟩

theorem takeBE_some {k : Nat} {bs r : Bytes} {n : Nat} (h : takeBE k bs = some (n, r)) :
    ∃ x, bs = x ++ r ∧ x.length = k ∧ n = bigEndian x := by
  rw [takeBE, Option.map_eq_some_iff] at h
  obtain ⟨⟨x, r'⟩, h1, h2⟩ := h
  injection h2 with h2 h3
  obtain ⟨h4, h5⟩ := takeN_some h1
  exact ⟨x, by rw [h4, h3], h5, by rw [← h2, ofBE_eq]⟩

theorem takeBE_repr (d r : Bytes) : takeBE d.length (d ++ r) = some (bigEndian d, r) := by
  rw [takeBE, takeN_append, ← ofBE_eq]; rfl

theorem decN_sound {g : Bytes → Option (MP × Bytes)}
    (hg : ∀ bs v r, g bs = some (v, r) → ∃ p, bs = p ++ r ∧ Repr v p) :
    ∀ (n : Nat) (bs : Bytes) (l : List MP) (r : Bytes), decN g n bs = some (l, r) →
      ∃ p, bs = p ++ r ∧ ReprList l p ∧ l.length = n := by
  intro n
  induction n with
  | zero =>
    intro bs l r h
    rw [decN] at h
    injection h with h
    injection h with h1 h2
    subst h1 h2
    exact ⟨[], rfl, .nil, rfl⟩
  | succ n ih =>
    intro bs l r h
    rw [decN] at h
    cases h1 : g bs with
    | none => rw [h1] at h; cases h
    | some ar =>
      obtain ⟨a, r1⟩ := ar
      rw [h1] at h
      change (decN g n r1).bind _ = _ at h
      cases h2 : decN g n r1 with
      | none => rw [h2] at h; cases h
      | some lr =>
        obtain ⟨l', r2⟩ := lr
        rw [h2] at h
        injection h with h
        injection h with h3 h4
        subst h3 h4
        obtain ⟨p, e1, hp⟩ := hg _ _ _ h1
        obtain ⟨q, e2, hq, hl⟩ := ih _ _ _ h2
        exact ⟨p ++ q, by rw [e1, e2, List.append_assoc], .cons _ _ _ _ hp hq, by rw [List.length_cons, hl]⟩

theorem u8_eq {b : UInt8} {n : Nat} (h : b.toNat = n) : b = UInt8.ofNat n := by
  subst h
  exact (UInt8.ofNat_toNat).symm

theorem decBody_sound {g : Bytes → Option (MP × Bytes)}
    (hg : ∀ bs v r, g bs = some (v, r) → ∃ p, bs = p ++ r ∧ Repr v p)
    (b : UInt8) (bs : Bytes) (v : MP) (r : Bytes) (h : decBody g b.toNat bs = some (v, r)) :
    ∃ p, b :: bs = p ++ r ∧ Repr v p := by
  have hlt := b.toNat_lt
  -- strings
  have hstr : ∀ (pre : Bytes) (n : Nat) (bs' : Bytes), b :: bs = pre ++ bs' →
      (takeN n bs').map (fun (s, r) => (MP.str s, r)) = some (v, r) →
      (∀ s : Bytes, s.length = n → Repr (.str s) (pre ++ s)) → ∃ p, b :: bs = p ++ r ∧ Repr v p := by
    intro pre n bs' e h1 h2
    rw [Option.map_eq_some_iff] at h1
    obtain ⟨⟨s, r'⟩, h3, h4⟩ := h1
    injection h4 with h4 h5
    subst h4 h5
    obtain ⟨h6, h7⟩ := takeN_some h3
    exact ⟨pre ++ s, by rw [e, h6, List.append_assoc], h2 s h7⟩
  have hbin : ∀ (pre : Bytes) (n : Nat) (bs' : Bytes), b :: bs = pre ++ bs' →
      (takeN n bs').map (fun (s, r) => (MP.bin s, r)) = some (v, r) →
      (∀ s : Bytes, s.length = n → Repr (.bin s) (pre ++ s)) → ∃ p, b :: bs = p ++ r ∧ Repr v p := by
    intro pre n bs' e h1 h2
    rw [Option.map_eq_some_iff] at h1
    obtain ⟨⟨s, r'⟩, h3, h4⟩ := h1
    injection h4 with h4 h5
    subst h4 h5
    obtain ⟨h6, h7⟩ := takeN_some h3
    exact ⟨pre ++ s, by rw [e, h6, List.append_assoc], h2 s h7⟩
  have harr : ∀ (pre : Bytes) (n : Nat) (bs' : Bytes), b :: bs = pre ++ bs' →
      (decN g n bs').map (fun (l, r) => (MP.arr l, r)) = some (v, r) →
      (∀ l p, l.length = n → ReprList l p → Repr (.arr l) (pre ++ p)) → ∃ p, b :: bs = p ++ r ∧ Repr v p := by
    intro pre n bs' e h1 h2
    rw [Option.map_eq_some_iff] at h1
    obtain ⟨⟨l, r'⟩, h3, h4⟩ := h1
    injection h4 with h4 h5
    subst h4 h5
    obtain ⟨p, h6, h7, h8⟩ := decN_sound hg _ _ _ _ h3
    exact ⟨pre ++ p, by rw [e, h6, List.append_assoc], h2 l p h8 h7⟩
  have hmap : ∀ (pre : Bytes) (n : Nat) (bs' : Bytes), b :: bs = pre ++ bs' →
      (decN g n bs').map (fun (l, r) => (MP.map l, r)) = some (v, r) →
      (∀ l p, l.length = n → ReprList l p → Repr (.map l) (pre ++ p)) → ∃ p, b :: bs = p ++ r ∧ Repr v p := by
    intro pre n bs' e h1 h2
    rw [Option.map_eq_some_iff] at h1
    obtain ⟨⟨l, r'⟩, h3, h4⟩ := h1
    injection h4 with h4 h5
    subst h4 h5
    obtain ⟨p, h6, h7, h8⟩ := decN_sound hg _ _ _ _ h3
    exact ⟨pre ++ p, by rw [e, h6, List.append_assoc], h2 l p h8 h7⟩
  have hu : ∀ (m : UInt8) (k : Nat), b = m → (m, k) ∈ [((0xcc : UInt8), 1), (0xcd, 2), (0xce, 4), (0xcf, 8)] →
      (takeBE k bs).bind (fun p => some (MP.uint p.1, p.2)) = some (v, r) → ∃ p, b :: bs = p ++ r ∧ Repr v p := by
    intro m k e hm h1
    rw [Option.bind_eq_some_iff] at h1
    obtain ⟨⟨n, r'⟩, h3, h4⟩ := h1
    injection h4 with h4
    injection h4 with h4 h5
    obtain ⟨x, h6, h7, h8⟩ := takeBE_some h3
    subst h4 h5 e
    simp only
    rw [h8]
    exact ⟨b :: x, by rw [h6]; rfl, .uint b k x hm h7⟩
  have hs : ∀ (m : UInt8) (k : Nat), b = m → (m, k) ∈ [((0xd0 : UInt8), 1), (0xd1, 2), (0xd2, 4), (0xd3, 8)] →
      (takeBE k bs).bind (sint k) = some (v, r) → ∃ p, b :: bs = p ++ r ∧ Repr v p := by
    intro m k e hm h1
    rw [Option.bind_eq_some_iff] at h1
    obtain ⟨⟨n, r'⟩, h3, h4⟩ := h1
    rw [sint] at h4
    injection h4 with h4
    injection h4 with h4 h5
    obtain ⟨x, h6, h7, h8⟩ := takeBE_some h3
    subst h4 h5 e
    simp only
    rw [h8]
    have hb := bigEndian_lt x
    rw [h7] at hb
    refine ⟨b :: x, by rw [h6]; rfl, ?_⟩
    split
    · rename_i hc; exact .intPos b k x hm h7 hc
    · exact .intNeg b k x _ hm h7 (by omega) (by omega)
  have hf : ∀ (m : UInt8) (k : Nat), b = m → (m, k) ∈ [((0xca : UInt8), 4), (0xcb, 8)] →
      (takeN k bs).map (fun p => (MP.float p.1, p.2)) = some (v, r) → ∃ p, b :: bs = p ++ r ∧ Repr v p := by
    intro m k e hm h1
    rw [Option.map_eq_some_iff] at h1
    obtain ⟨⟨s, r'⟩, h3, h4⟩ := h1
    injection h4 with h4 h5
    subst h4 h5 e
    obtain ⟨h6, h7⟩ := takeN_some h3
    refine ⟨b :: s, by rw [h6]; rfl, .float b s ?_⟩
    rw [h7]; exact hm
  have hlen : ∀ (k : Nat) (F : Nat × Bytes → Option (MP × Bytes)), (takeBE k bs).bind F = some (v, r) →
      ∃ x bs', bs = x ++ bs' ∧ x.length = k ∧ F (bigEndian x, bs') = some (v, r) := by
    intro k F h1
    rw [Option.bind_eq_some_iff] at h1
    obtain ⟨⟨n, r'⟩, h3, h4⟩ := h1
    obtain ⟨x, h6, h7, h8⟩ := takeBE_some h3
    exact ⟨x, r', h6, h7, by rw [← h8]; exact h4⟩
  have hone : ∀ (w : MP), some (w, bs) = some (v, r) → Repr w [b] → ∃ p, b :: bs = p ++ r ∧ Repr v p := by
    intro w h1 h2
    injection h1 with h1
    injection h1 with h1 h3
    subst h1 h3
    exact ⟨[b], rfl, h2⟩
  rw [decBody] at h
  simp only at h
  by_cases c1 : b.toNat < 0x80
  · rw [if_pos c1] at h
    refine hone _ h ?_
    have := Repr.posFix b.toNat (by omega)
    rwa [UInt8.ofNat_toNat] at this
  rw [if_neg c1] at h
  by_cases c2 : b.toNat < 0x90
  · rw [if_pos c2] at h
    refine hmap [b] _ bs rfl h fun l p hl hp => ?_
    have := Repr.mapFix (b.toNat - 0x80) l p (by omega) hl hp
    rwa [show 0x80 + (b.toNat - 0x80) = b.toNat by omega, UInt8.ofNat_toNat] at this
  rw [if_neg c2] at h
  by_cases c3 : b.toNat < 0xa0
  · rw [if_pos c3] at h
    refine harr [b] _ bs rfl h fun l p hl hp => ?_
    have := Repr.arrFix l p (by omega) hp
    rwa [hl, show 0x90 + (b.toNat - 0x90) = b.toNat by omega, UInt8.ofNat_toNat] at this
  rw [if_neg c3] at h
  by_cases c4 : b.toNat < 0xc0
  · rw [if_pos c4] at h
    refine hstr [b] _ bs rfl h fun s hl => ?_
    have := Repr.strFix s (by omega)
    rwa [hl, show 0xa0 + (b.toNat - 0xa0) = b.toNat by omega, UInt8.ofNat_toNat] at this
  rw [if_neg c4] at h
  by_cases e : b.toNat = 0xc0
  · rw [if_pos e] at h; rw [u8_eq e] at hone ⊢; exact hone _ h .nil
  rw [if_neg e] at h
  by_cases e : b.toNat = 0xc2
  · rw [if_pos e] at h; rw [u8_eq e] at hone ⊢; exact hone _ h .false
  rw [if_neg e] at h
  by_cases e : b.toNat = 0xc3
  · rw [if_pos e] at h; rw [u8_eq e] at hone ⊢; exact hone _ h .true
  rw [if_neg e] at h
  by_cases e : b.toNat = 0xc4
  · rw [if_pos e] at h
    obtain ⟨x, bs', e1, e2, e3⟩ := hlen _ _ h
    exact hbin (b :: x) _ bs' (by rw [e1]; rfl) e3
      fun s hl => .bin b 1 x s (by rw [u8_eq e]; decide) e2 hl.symm
  rw [if_neg e] at h
  by_cases e : b.toNat = 0xc5
  · rw [if_pos e] at h
    obtain ⟨x, bs', e1, e2, e3⟩ := hlen _ _ h
    exact hbin (b :: x) _ bs' (by rw [e1]; rfl) e3
      fun s hl => .bin b 2 x s (by rw [u8_eq e]; decide) e2 hl.symm
  rw [if_neg e] at h
  by_cases e : b.toNat = 0xc6
  · rw [if_pos e] at h
    obtain ⟨x, bs', e1, e2, e3⟩ := hlen _ _ h
    exact hbin (b :: x) _ bs' (by rw [e1]; rfl) e3
      fun s hl => .bin b 4 x s (by rw [u8_eq e]; decide) e2 hl.symm
  rw [if_neg e] at h
  by_cases e : b.toNat = 0xca
  · rw [if_pos e] at h; exact hf _ 4 (u8_eq e) (by decide) h
  rw [if_neg e] at h
  by_cases e : b.toNat = 0xcb
  · rw [if_pos e] at h; exact hf _ 8 (u8_eq e) (by decide) h
  rw [if_neg e] at h
  by_cases e : b.toNat = 0xcc
  · rw [if_pos e] at h; exact hu _ 1 (u8_eq e) (by decide) h
  rw [if_neg e] at h
  by_cases e : b.toNat = 0xcd
  · rw [if_pos e] at h; exact hu _ 2 (u8_eq e) (by decide) h
  rw [if_neg e] at h
  by_cases e : b.toNat = 0xce
  · rw [if_pos e] at h; exact hu _ 4 (u8_eq e) (by decide) h
  rw [if_neg e] at h
  by_cases e : b.toNat = 0xcf
  · rw [if_pos e] at h; exact hu _ 8 (u8_eq e) (by decide) h
  rw [if_neg e] at h
  by_cases e : b.toNat = 0xd0
  · rw [if_pos e] at h; exact hs _ 1 (u8_eq e) (by decide) h
  rw [if_neg e] at h
  by_cases e : b.toNat = 0xd1
  · rw [if_pos e] at h; exact hs _ 2 (u8_eq e) (by decide) h
  rw [if_neg e] at h
  by_cases e : b.toNat = 0xd2
  · rw [if_pos e] at h; exact hs _ 4 (u8_eq e) (by decide) h
  rw [if_neg e] at h
  by_cases e : b.toNat = 0xd3
  · rw [if_pos e] at h; exact hs _ 8 (u8_eq e) (by decide) h
  rw [if_neg e] at h
  by_cases e : b.toNat = 0xd9
  · rw [if_pos e] at h
    obtain ⟨x, bs', e1, e2, e3⟩ := hlen _ _ h
    exact hstr (b :: x) _ bs' (by rw [e1]; rfl) e3
      fun s hl => .str b 1 x s (by rw [u8_eq e]; decide) e2 hl.symm
  rw [if_neg e] at h
  by_cases e : b.toNat = 0xda
  · rw [if_pos e] at h
    obtain ⟨x, bs', e1, e2, e3⟩ := hlen _ _ h
    exact hstr (b :: x) _ bs' (by rw [e1]; rfl) e3
      fun s hl => .str b 2 x s (by rw [u8_eq e]; decide) e2 hl.symm
  rw [if_neg e] at h
  by_cases e : b.toNat = 0xdb
  · rw [if_pos e] at h
    obtain ⟨x, bs', e1, e2, e3⟩ := hlen _ _ h
    exact hstr (b :: x) _ bs' (by rw [e1]; rfl) e3
      fun s hl => .str b 4 x s (by rw [u8_eq e]; decide) e2 hl.symm
  rw [if_neg e] at h
  by_cases e : b.toNat = 0xdc
  · rw [if_pos e] at h
    obtain ⟨x, bs', e1, e2, e3⟩ := hlen _ _ h
    exact harr (b :: x) _ bs' (by rw [e1]; rfl) e3
      fun l p hl hp => .arr b 2 x l p (by rw [u8_eq e]; decide) e2 hl.symm hp
  rw [if_neg e] at h
  by_cases e : b.toNat = 0xdd
  · rw [if_pos e] at h
    obtain ⟨x, bs', e1, e2, e3⟩ := hlen _ _ h
    exact harr (b :: x) _ bs' (by rw [e1]; rfl) e3
      fun l p hl hp => .arr b 4 x l p (by rw [u8_eq e]; decide) e2 hl.symm hp
  rw [if_neg e] at h
  by_cases e : b.toNat = 0xde
  · rw [if_pos e] at h
    obtain ⟨x, bs', e1, e2, e3⟩ := hlen _ _ h
    exact hmap (b :: x) _ bs' (by rw [e1]; rfl) e3
      fun l p hl hp => .map b 2 x l p (by rw [u8_eq e]; decide) e2 hl hp
  rw [if_neg e] at h
  by_cases e : b.toNat = 0xdf
  · rw [if_pos e] at h
    obtain ⟨x, bs', e1, e2, e3⟩ := hlen _ _ h
    exact hmap (b :: x) _ bs' (by rw [e1]; rfl) e3
      fun l p hl hp => .map b 4 x l p (by rw [u8_eq e]; decide) e2 hl hp
  rw [if_neg e] at h
  by_cases e : 0xe0 ≤ b.toNat
  · rw [if_pos e] at h
    refine hone _ h ?_
    have := Repr.negFix (0xff - b.toNat) (by omega)
    rwa [show 0xff - (0xff - b.toNat) = b.toNat by omega, UInt8.ofNat_toNat] at this
  · rw [if_neg e] at h; cases h

theorem dec_sound : ∀ (f : Nat) (bs : Bytes) (v : MP) (r : Bytes), dec f bs = some (v, r) →
    ∃ p, bs = p ++ r ∧ Repr v p := by
  intro f
  induction f with
  | zero => intro bs v r h; rw [dec] at h; cases h
  | succ f ih =>
    intro bs v r h
    cases bs with
    | nil => rw [dec] at h; cases h
    | cons b bs => rw [dec] at h; exact decBody_sound ih b bs v r h

theorem dec_fix_str (f : Nat) (s r : Bytes) (h : s.length < 32) :
    dec (f + 1) (UInt8.ofNat (0xa0 + s.length) :: (s ++ r)) = some (.str s, r) := by
  have := dec_str f s r (by omega)
  rwa [strHeader, if_pos h] at this

mutual
theorem dec_complete : ∀ {v : MP} {p : Bytes}, Repr v p → ∀ (f : Nat) (r : Bytes), v.depth ≤ f →
    dec f (p ++ r) = some (v, r)
  | v, _, _, 0, _, hd => by cases v <;> simp [MP.depth] at hd
  | _, _, .nil, f + 1, r, _ => by simp [dec, decBody]
  | _, _, .false, f + 1, r, _ => by simp [dec, decBody]
  | _, _, .true, f + 1, r, _ => by simp [dec, decBody]
  | _, _, .posFix n h, f + 1, r, _ => by
    have := dec_uint f n r (by omega)
    rwa [encUint, if_pos h] at this
  | _, _, .uint m k d hm hd, f + 1, r, _ => by
    have ht := takeBE_repr d r
    rw [hd] at ht
    simp only [List.mem_cons, Prod.mk.injEq, List.not_mem_nil, or_false] at hm
    rw [List.cons_append, dec]
    rcases hm with ⟨rfl, rfl⟩ | ⟨rfl, rfl⟩ | ⟨rfl, rfl⟩ | ⟨rfl, rfl⟩ <;> simp [decBody, ht]
  | _, _, .intPos m k d hm hd h, f + 1, r, _ => by
    have ht := takeBE_repr d r
    rw [hd] at ht
    simp only [List.mem_cons, Prod.mk.injEq, List.not_mem_nil, or_false] at hm
    rw [List.cons_append, dec]
    rcases hm with ⟨rfl, rfl⟩ | ⟨rfl, rfl⟩ | ⟨rfl, rfl⟩ | ⟨rfl, rfl⟩ <;> simp [decBody, ht, sint] <;> omega
  | _, _, .negFix n h, f + 1, r, _ => by
    have := dec_neg f n r (by omega)
    rwa [encNeg, if_pos h] at this
  | _, _, .intNeg m k d n hm hd h hn, f + 1, r, _ => by
    have ht := takeBE_repr d r
    rw [hd] at ht
    simp only [List.mem_cons, Prod.mk.injEq, List.not_mem_nil, or_false] at hm
    rw [List.cons_append, dec]
    rcases hm with ⟨rfl, rfl⟩ | ⟨rfl, rfl⟩ | ⟨rfl, rfl⟩ | ⟨rfl, rfl⟩ <;> simp [decBody, ht, sint] <;>
      rw [if_neg (by omega)] <;> congr 1 <;> omega
  | _, _, .float m b hm, f + 1, r, _ => by
    have ht := takeN_append b r
    simp only [List.mem_cons, Prod.mk.injEq, List.not_mem_nil, or_false] at hm
    rw [List.cons_append, dec]
    rcases hm with ⟨rfl, hb⟩ | ⟨rfl, hb⟩ <;> rw [hb] at ht <;> simp [decBody, ht]
  | _, _, .strFix s h, f + 1, r, _ => dec_fix_str f s r h
  | _, _, .str m k d s hm hd hs, f + 1, r, _ => by
    have ht := takeBE_repr d (s ++ r)
    rw [hd, hs] at ht
    simp only [List.mem_cons, Prod.mk.injEq, List.not_mem_nil, or_false] at hm
    rw [List.cons_append, dec, List.append_assoc]
    rcases hm with ⟨rfl, rfl⟩ | ⟨rfl, rfl⟩ | ⟨rfl, rfl⟩ <;> simp [decBody, ht, takeN_append]
  | _, _, .bin m k d s hm hd hs, f + 1, r, _ => by
    have ht := takeBE_repr d (s ++ r)
    rw [hd, hs] at ht
    simp only [List.mem_cons, Prod.mk.injEq, List.not_mem_nil, or_false] at hm
    rw [List.cons_append, dec, List.append_assoc]
    rcases hm with ⟨rfl, rfl⟩ | ⟨rfl, rfl⟩ | ⟨rfl, rfl⟩ <;> simp [decBody, ht, takeN_append]
  | _, _, .arrFix l p h hl, f + 1, r, hd => by
    rw [MP.depth] at hd
    have := dec_arr f l p r (by omega) (decN_complete hl f r (by omega))
    rwa [arrHeader, if_pos h] at this
  | _, _, .arr m k d l p hm hd hs hl, f + 1, r, hdep => by
    rw [MP.depth] at hdep
    have hn := decN_complete hl f r (by omega)
    have ht := takeBE_repr d (p ++ r)
    rw [hd, hs] at ht
    simp only [List.mem_cons, Prod.mk.injEq, List.not_mem_nil, or_false] at hm
    rw [List.cons_append, dec, List.append_assoc]
    rcases hm with ⟨rfl, rfl⟩ | ⟨rfl, rfl⟩ <;> simp [decBody, ht, hn]
  | _, _, .mapFix n l p h hn hl, f + 1, r, hd => by
    rw [MP.depth] at hd
    have := dec_map f l p r (by omega) (by omega) (decN_complete hl f r (by omega))
    rw [hn, Nat.mul_div_cancel_left n (by decide), mapHeader, if_pos h] at this
    exact this
  | _, _, .map m k d l p hm hd hs hl, f + 1, r, hdep => by
    rw [MP.depth] at hdep
    have hn := decN_complete hl f r (by omega)
    rw [hs] at hn
    have ht := takeBE_repr d (p ++ r)
    rw [hd] at ht
    simp only [List.mem_cons, Prod.mk.injEq, List.not_mem_nil, or_false] at hm
    rw [List.cons_append, dec, List.append_assoc]
    rcases hm with ⟨rfl, rfl⟩ | ⟨rfl, rfl⟩ <;> simp [decBody, ht, hn]
theorem decN_complete : ∀ {l : List MP} {p : Bytes}, ReprList l p → ∀ (f : Nat) (r : Bytes), depthList l ≤ f →
    decN (dec f) l.length (p ++ r) = some (l, r)
  | _, _, .nil, f, r, _ => by simp [decN]
  | _, _, .cons a l p q ha hl, f, r, hd => by
    rw [depthList] at hd
    rw [List.length_cons, decN, List.append_assoc, dec_complete ha f (q ++ r) (by omega)]
    show (decN (dec f) l.length (q ++ r)).bind _ = _
    rw [decN_complete hl f r (by omega)]
    rfl
end

mutual
theorem repr_depth : ∀ {v : MP} {p : Bytes}, Repr v p → v.depth ≤ p.length
  | _, _, .nil => by simp [MP.depth]
  | _, _, .false => by simp [MP.depth]
  | _, _, .true => by simp [MP.depth]
  | _, _, .posFix _ _ => by simp [MP.depth]
  | _, _, .uint _ _ _ _ _ => by simp [MP.depth]
  | _, _, .intPos _ _ _ _ _ _ => by simp [MP.depth]
  | _, _, .negFix _ _ => by simp [MP.depth]
  | _, _, .intNeg _ _ _ _ _ _ _ _ => by simp [MP.depth]
  | _, _, .float _ _ _ => by simp [MP.depth]
  | _, _, .strFix _ _ => by simp [MP.depth]
  | _, _, .str _ _ _ _ _ _ _ => by simp [MP.depth]
  | _, _, .bin _ _ _ _ _ _ _ => by simp [MP.depth]
  | _, _, .arrFix l p _ hl => by have := reprList_depth hl; simp [MP.depth]; omega
  | _, _, .arr _ _ _ l p _ _ _ hl => by have := reprList_depth hl; simp [MP.depth]; omega
  | _, _, .mapFix _ l p _ _ hl => by have := reprList_depth hl; simp [MP.depth]; omega
  | _, _, .map _ _ _ l p _ _ _ hl => by have := reprList_depth hl; simp [MP.depth]; omega
theorem reprList_depth : ∀ {l : List MP} {p : Bytes}, ReprList l p → depthList l ≤ p.length
  | _, _, .nil => by simp [depthList]
  | _, _, .cons a l p q ha hl => by
    have := repr_depth ha
    have := reprList_depth hl
    rw [depthList, List.length_append]; omega
end

/-- C119: the reader accepts exactly the strings that begin with a representation of a value, in any form, and gives
that value and the rest. -/
theorem C119_reader (bs : Bytes) (v : MP) (rest : Bytes) :
    decode bs = some (v, rest) ↔ ∃ p, bs = p ++ rest ∧ Repr v p := by
  constructor
  · exact dec_sound _ _ _ _
  · rintro ⟨p, rfl, h⟩
    have := repr_depth h
    exact dec_complete h _ _ (by rw [List.length_append]; omega)

/-- C119: the format is unambiguous: no string begins with representations of two values, or with two representations
of one. -/
theorem C119_unambiguous (v w : MP) (p q r s : Bytes) (hv : Repr v p) (hw : Repr w q) (h : p ++ r = q ++ s) :
    v = w ∧ p = q ∧ r = s := by
  have h1 := (C119_reader (p ++ r) v r).2 ⟨p, rfl, hv⟩
  have h2 := (C119_reader (p ++ r) w s).2 ⟨q, h, hw⟩
  rw [h1] at h2
  injection h2 with h2
  injection h2 with h3 h4
  subst h4
  exact ⟨h3, List.append_cancel_right h, rfl⟩

/-! ## The writer -/

theorem bigEndian_snoc (a : Bytes) (b : UInt8) : bigEndian (a ++ [b]) = bigEndian a * 256 + b.toNat := by
  rw [← ofBE_eq, ← ofBE_eq, ofBE_snoc]

theorem bigEndian_beBytes (k n : Nat) (h : n < 256 ^ k) : bigEndian (beBytes k n) = n := by
  rw [← ofBE_eq, ofBE_beBytes k n h]

mutual
theorem repr_fits : ∀ {v : MP} {p : Bytes}, Repr v p → v.Fits
  | _, _, .nil => by simp [MP.Fits]
  | _, _, .false => by simp [MP.Fits]
  | _, _, .true => by simp [MP.Fits]
  | _, _, .posFix _ _ => by simp [MP.Fits]; omega
  | _, _, .uint _ k d hm hd => by
    have := bigEndian_lt d
    simp only [List.mem_cons, Prod.mk.injEq, List.not_mem_nil, or_false] at hm
    rw [MP.Fits]
    rw [hd] at this
    rcases hm with ⟨_, rfl⟩ | ⟨_, rfl⟩ | ⟨_, rfl⟩ | ⟨_, rfl⟩ <;> omega
  | _, _, .intPos _ k d hm hd _ => by
    have := bigEndian_lt d
    simp only [List.mem_cons, Prod.mk.injEq, List.not_mem_nil, or_false] at hm
    rw [MP.Fits]
    rw [hd] at this
    rcases hm with ⟨_, rfl⟩ | ⟨_, rfl⟩ | ⟨_, rfl⟩ | ⟨_, rfl⟩ <;> omega
  | _, _, .negFix _ _ => by simp [MP.Fits]; omega
  | _, _, .intNeg _ k d n hm hd h hn => by
    simp only [List.mem_cons, Prod.mk.injEq, List.not_mem_nil, or_false] at hm
    rw [MP.Fits]
    rcases hm with ⟨_, rfl⟩ | ⟨_, rfl⟩ | ⟨_, rfl⟩ | ⟨_, rfl⟩ <;> omega
  | _, _, .float _ b hm => by
    simp only [List.mem_cons, Prod.mk.injEq, List.not_mem_nil, or_false] at hm
    rw [MP.Fits]; exact hm.imp And.right And.right
  | _, _, .strFix _ _ => by rw [MP.Fits]; omega
  | _, _, .str _ k d s hm hd hs => by
    have := bigEndian_lt d
    simp only [List.mem_cons, Prod.mk.injEq, List.not_mem_nil, or_false] at hm
    rw [MP.Fits, ← hs]
    rw [hd] at this
    rcases hm with ⟨_, rfl⟩ | ⟨_, rfl⟩ | ⟨_, rfl⟩ <;> omega
  | _, _, .bin _ k d s hm hd hs => by
    have := bigEndian_lt d
    simp only [List.mem_cons, Prod.mk.injEq, List.not_mem_nil, or_false] at hm
    rw [MP.Fits, ← hs]
    rw [hd] at this
    rcases hm with ⟨_, rfl⟩ | ⟨_, rfl⟩ | ⟨_, rfl⟩ <;> omega
  | _, _, .arrFix l p h hl => by rw [MP.Fits]; exact ⟨by omega, reprList_fits hl⟩
  | _, _, .arr _ k d l p hm hd hs hl => by
    have := bigEndian_lt d
    simp only [List.mem_cons, Prod.mk.injEq, List.not_mem_nil, or_false] at hm
    rw [MP.Fits, ← hs]
    rw [hd] at this
    refine ⟨?_, reprList_fits hl⟩
    rcases hm with ⟨_, rfl⟩ | ⟨_, rfl⟩ <;> omega
  | _, _, .mapFix n l p h hn hl => by rw [MP.Fits]; exact ⟨by omega, by omega, reprList_fits hl⟩
  | _, _, .map _ k d l p hm hd hs hl => by
    have := bigEndian_lt d
    simp only [List.mem_cons, Prod.mk.injEq, List.not_mem_nil, or_false] at hm
    rw [MP.Fits, hs]
    rw [hd] at this
    refine ⟨by omega, ?_, reprList_fits hl⟩
    rcases hm with ⟨_, rfl⟩ | ⟨_, rfl⟩ <;> omega
theorem reprList_fits : ∀ {l : List MP} {p : Bytes}, ReprList l p → FitsList l
  | _, _, .nil => by simp [FitsList]
  | _, _, .cons a l p q ha hl => by rw [FitsList]; exact ⟨repr_fits ha, reprList_fits hl⟩
end

/-- A value that can be written is represented by what is written. -/
theorem repr_enc (v : MP) (h : v.Fits) : Repr v (enc v) := by
  have h1 := decode_enc v [] h
  rw [C119_reader] at h1
  obtain ⟨p, e, hp⟩ := h1
  rw [List.append_nil, List.append_nil] at e
  rw [e]; exact hp

theorem encUint_len (n : Nat) : (encUint n).length =
    if n < 128 then 1 else if n < 256 then 2 else if n < 65536 then 3 else if n < 4294967296 then 5 else 9 := by
  unfold encUint
  (repeat' split) <;> simp [beBytes_len]

theorem encNeg_len (n : Nat) : (encNeg n).length =
    if n < 32 then 1 else if n < 128 then 2 else if n < 32768 then 3 else if n < 2147483648 then 5 else 9 := by
  unfold encNeg
  (repeat' split) <;> simp [beBytes_len]

mutual
theorem enc_shortest : ∀ {v : MP} {p : Bytes}, Repr v p → (enc v).length ≤ p.length
  | _, _, .nil => by simp [enc]
  | _, _, .false => by simp [enc]
  | _, _, .true => by simp [enc]
  | _, _, .posFix n h => by rw [enc, encUint_len, if_pos h]; simp
  | _, _, .uint _ k d hm hd => by
    have := bigEndian_lt d
    simp only [List.mem_cons, Prod.mk.injEq, List.not_mem_nil, or_false] at hm
    rw [enc, encUint_len, List.length_cons]
    rw [hd] at this ⊢
    rcases hm with ⟨_, rfl⟩ | ⟨_, rfl⟩ | ⟨_, rfl⟩ | ⟨_, rfl⟩ <;> (repeat' split) <;> omega
  | _, _, .intPos _ k d hm hd h => by
    have := bigEndian_lt d
    simp only [List.mem_cons, Prod.mk.injEq, List.not_mem_nil, or_false] at hm
    rw [enc, encUint_len, List.length_cons]
    rw [hd] at this ⊢
    rcases hm with ⟨_, rfl⟩ | ⟨_, rfl⟩ | ⟨_, rfl⟩ | ⟨_, rfl⟩ <;> (repeat' split) <;> omega
  | _, _, .negFix n h => by rw [enc, encNeg_len, if_pos h]; simp
  | _, _, .intNeg _ k d n hm hd h hn => by
    simp only [List.mem_cons, Prod.mk.injEq, List.not_mem_nil, or_false] at hm
    rw [enc, encNeg_len, List.length_cons, hd]
    rcases hm with ⟨_, rfl⟩ | ⟨_, rfl⟩ | ⟨_, rfl⟩ | ⟨_, rfl⟩ <;> (repeat' split) <;> omega
  | _, _, .float _ b _ => by simp [enc]
  | _, _, .strFix s h => by rw [enc, strHeader, if_pos h]; simp
  | _, _, .str _ k d s hm hd hs => by
    have := bigEndian_lt d
    simp only [List.mem_cons, Prod.mk.injEq, List.not_mem_nil, or_false] at hm
    rw [enc, List.length_append, List.length_cons, List.length_append, strHeader]
    rw [hd] at this ⊢
    rcases hm with ⟨_, rfl⟩ | ⟨_, rfl⟩ | ⟨_, rfl⟩ <;> (repeat' split) <;> simp [beBytes_len] <;> omega
  | _, _, .bin _ k d s hm hd hs => by
    have := bigEndian_lt d
    simp only [List.mem_cons, Prod.mk.injEq, List.not_mem_nil, or_false] at hm
    rw [enc, List.length_append, List.length_cons, List.length_append, binHeader]
    rw [hd] at this ⊢
    rcases hm with ⟨_, rfl⟩ | ⟨_, rfl⟩ | ⟨_, rfl⟩ <;> (repeat' split) <;> simp [beBytes_len] <;> omega
  | _, _, .arrFix l p h hl => by
    have := encList_shortest hl
    rw [enc, arrHeader, if_pos h]; simp; omega
  | _, _, .arr _ k d l p hm hd hs hl => by
    have h1 := encList_shortest hl
    have := bigEndian_lt d
    simp only [List.mem_cons, Prod.mk.injEq, List.not_mem_nil, or_false] at hm
    rw [enc, List.length_append, List.length_cons, List.length_append, arrHeader]
    rw [hd] at this ⊢
    rcases hm with ⟨_, rfl⟩ | ⟨_, rfl⟩ <;> (repeat' split) <;> simp [beBytes_len] <;> omega
  | _, _, .mapFix n l p h hn hl => by
    have := encList_shortest hl
    rw [enc, mapHeader, if_pos (by omega)]; simp; omega
  | _, _, .map _ k d l p hm hd hs hl => by
    have h1 := encList_shortest hl
    have := bigEndian_lt d
    simp only [List.mem_cons, Prod.mk.injEq, List.not_mem_nil, or_false] at hm
    rw [enc, List.length_append, List.length_cons, List.length_append, mapHeader]
    rw [hd] at this ⊢
    rcases hm with ⟨_, rfl⟩ | ⟨_, rfl⟩ <;> (repeat' split) <;> simp [beBytes_len] <;> omega
theorem encList_shortest : ∀ {l : List MP} {p : Bytes}, ReprList l p → (encList l).length ≤ p.length
  | _, _, .nil => by simp [encList]
  | _, _, .cons a l p q ha hl => by
    have := enc_shortest ha
    have := encList_shortest hl
    rw [encList, List.length_append, List.length_append]; omega
end

/-- C119: for every value that has a representation at all, the writer gives one, and none is shorter. -/
theorem C119_writer (v : MP) (p : Bytes) (h : Repr v p) : Repr v (enc v) ∧ (enc v).length ≤ p.length :=
  ⟨repr_enc v (repr_fits h), enc_shortest h⟩

/-- C119: the values that have a representation are those with integers of 64 bits, lengths of 32 bits, and as many keys
as values. -/
theorem C119_representable (v : MP) : (∃ p, Repr v p) ↔ v.Fits :=
  ⟨fun ⟨_, h⟩ => repr_fits h, fun h => ⟨_, repr_enc v h⟩⟩

/-- Two representations of one map, the second one longer. -/
example : Repr (.map [.str [97], .uint 300]) [0x81, 0xa1, 97, 0xcd, 1, 44] ∧
    Repr (.map [.str [97], .uint 300]) [0xde, 0, 1, 0xd9, 1, 97, 0xd1, 1, 44] := by
  have h1 : Repr (.str [97]) [0xa1, 97] := .strFix [97] (by decide)
  have h2 : Repr (.uint 300) [0xcd, 1, 44] := .uint 0xcd 2 [1, 44] (by decide) rfl
  have h3 : Repr (.str [97]) [0xd9, 1, 97] := .str 0xd9 1 [1] [97] (by decide) rfl rfl
  have h4 : Repr (.uint 300) [0xd1, 1, 44] := .intPos 0xd1 2 [1, 44] (by decide) rfl (by decide)
  exact ⟨.mapFix 1 _ _ (by decide) rfl (.cons _ _ _ _ h1 (.cons _ _ _ _ h2 .nil)),
    .map 0xde 2 [0, 1] _ _ (by decide) rfl rfl (.cons _ _ _ _ h3 (.cons _ _ _ _ h4 .nil))⟩

/-- A list of a negative number and a floating point number, read with what follows. -/
example : decode [0x92, 0xff, 0xca, 1, 2, 3, 4, 9] = some (.arr [.neg 0, .float [1, 2, 3, 4]], [9]) :=
  (C119_reader _ _ _).2 ⟨[0x92, 0xff, 0xca, 1, 2, 3, 4], rfl,
    .arrFix _ _ (by decide) (.cons _ _ _ _ (.negFix 0 (by decide)) (.cons _ _ _ _ (.float 0xca [1, 2, 3, 4] (by decide)) .nil))⟩

/-- A case of `C119_unambiguous` and `C119_writer`: the number 5 in nine bytes. -/
example : Repr (.uint 5) [0xcf, 0, 0, 0, 0, 0, 0, 0, 5] ∧ Repr (.uint 5) (enc (.uint 5)) ∧ (enc (.uint 5)).length ≤ 9 ∧
    ∀ v q r, Repr v q → q ++ r = [0xcf, 0, 0, 0, 0, 0, 0, 0, 5, 1] → v = .uint 5 ∧ r = [1] := by
  have h : Repr (.uint 5) [0xcf, 0, 0, 0, 0, 0, 0, 0, 5] := by
    exact .uint 0xcf 8 [0, 0, 0, 0, 0, 0, 0, 5] (by decide) rfl
  exact ⟨h, (C119_writer _ _ h).1, (C119_writer _ _ h).2, fun v q r hq he =>
    let h2 := C119_unambiguous v (.uint 5) q _ r [1] hq h he
    ⟨h2.1, h2.2.2⟩⟩

end Verif.Props
