import Verif.Model.Base32
/-!
# Base32 round trip and canonicity
-/

namespace Verif.Base32
open Verif Verif.Bits

theorem symVal_sym (v : Nat) (h : v < 32) : symVal (sym v) = some v := by
  have : ∀ v : Fin 32, symVal (sym v.val) = some v.val := by decide
  exact this ⟨v, h⟩

theorem sym_symVal (c : UInt8) (v : Nat) (h : symVal c = some v) : sym v = c ∧ v < 32 := by
  have hc := c.toNat_lt
  simp only [symVal] at h
  split at h
  · rename_i hr
    injection h with h
    refine ⟨?_, by omega⟩
    apply UInt8.toNat_inj.mp
    rw [sym, if_pos (by omega), UInt8.toNat_ofNat']
    omega
  · split at h
    · rename_i hr
      injection h with h
      refine ⟨?_, by omega⟩
      apply UInt8.toNat_inj.mp
      rw [sym, if_neg (by omega), UInt8.toNat_ofNat']
      omega
    · cases h

/-- Fill a bit string with zeros to a multiple of five. -/
def padded (l : List Bool) : List Bool := l ++ List.replicate ((5 - l.length % 5) % 5) false

theorem padded_cons5 (a l : List Bool) (h : a.length = 5) : padded (a ++ l) = a ++ padded l := by
  simp only [padded, List.append_assoc, List.length_append, h]
  congr 4
  omega

theorem symBits_enc5 (l : List Bool) : symBits (enc5 l) = some (padded l) := by
  induction hn : l.length using Nat.strongRecOn generalizing l with
  | _ n ih =>
    cases l with
    | nil => simp [enc5, symBits, padded]
    | cons b bs =>
      rw [enc5, symBits]
      have hlen : ((b :: bs).take 5 ++ List.replicate (5 - (b :: bs).length) false).length = 5 := by
        simp only [List.length_append, List.length_take, List.length_replicate]; omega
      have hlt : bitsVal ((b :: bs).take 5 ++ List.replicate (5 - (b :: bs).length) false) < 32 := by
        have := bitsVal_lt ((b :: bs).take 5 ++ List.replicate (5 - (b :: bs).length) false)
        rw [hlen] at this; exact this
      rw [symVal_sym _ hlt, ih ((b :: bs).drop 5).length (by rw [← hn]; simp; omega) _ rfl]
      simp only [Option.some.injEq]
      rw [natBits_bitsVal 5 _ hlen]
      by_cases h5 : 5 ≤ (b :: bs).length
      · have e : 5 - (b :: bs).length = 0 := by omega
        rw [e, List.replicate_zero, List.append_nil,
          ← padded_cons5 _ _ (by rw [List.length_take]; omega), List.take_append_drop]
      · have h0 : (b :: bs).length ≠ 0 := by simp
        have e : (b :: bs).drop 5 = [] := List.drop_eq_nil_iff.2 (by omega)
        rw [e, List.take_of_length_le (by omega)]
        have e2 : padded ([] : List Bool) = [] := rfl
        rw [e2, List.append_nil, padded]
        congr 2; omega

theorem enc5_symBits (s : Bytes) (l : List Bool) (h : symBits s = some l) :
    enc5 l = s ∧ l.length = 5 * s.length := by
  induction s generalizing l with
  | nil => simp only [symBits, Option.some.injEq] at h; subst h; simp [enc5]
  | cons c cs ih =>
    rw [symBits] at h
    split at h
    · rename_i v bs hv hbs
      injection h with h
      obtain ⟨h1, h2⟩ := ih bs hbs
      obtain ⟨h3, h4⟩ := sym_symVal c v hv
      have hl : (natBits 5 v).length = 5 := natBits_length 5 v
      refine ⟨?_, by rw [← h]; simp [h2]; omega⟩
      have key : ∀ (p q : List Bool), p.length = 5 → enc5 (p ++ q) = sym (bitsVal p) :: enc5 q := by
        intro p q hp
        match p, hp with
        | x :: p', hp =>
          rw [List.cons_append, enc5, ← List.cons_append]
          have e1 : ((x :: p') ++ q).take 5 = x :: p' := by
            rw [List.take_append_of_le_length (by omega), List.take_of_length_le (by omega)]
          have e2 : ((x :: p') ++ q).drop 5 = q := by
            rw [List.drop_append_of_le_length (by omega), List.drop_eq_nil_iff.2 (by omega)]; rfl
          have e3 : 5 - ((x :: p') ++ q).length = 0 := by
            rw [List.length_append]; omega
          rw [e1, e2, e3]; simp
      rw [← h, key _ _ hl, bitsVal_natBits 5 v h4, h3, h1]
    · cases h

@[simp] theorem bytesToBits_length (bs : Bytes) : (bytesToBits bs).length = 8 * bs.length := by
  induction bs with
  | nil => rfl
  | cons b bs ih => simp [bytesToBits] at ih ⊢; omega

theorem bytesToBits_cons (b : UInt8) (bs : Bytes) :
    bytesToBits (b :: bs) = natBits 8 b.toNat ++ bytesToBits bs := rfl

theorem dec8_bits (bs : Bytes) (r : List Bool) (hr : r.length < 5) (hz : r.all (! ·) = true) :
    dec8 (bytesToBits bs ++ r) = some bs := by
  induction bs with
  | nil =>
    rw [dec8, dif_pos (by simp [bytesToBits]; omega), if_pos ⟨by simpa [bytesToBits] using hr,
      by simpa [bytesToBits] using hz⟩]
  | cons b bs ih =>
    have hl : (natBits 8 b.toNat).length = 8 := natBits_length _ _
    have e1 : (bytesToBits (b :: bs) ++ r).take 8 = natBits 8 b.toNat := by
      rw [bytesToBits_cons, List.append_assoc, List.take_append_of_le_length (by omega),
        List.take_of_length_le (by omega)]
    have e2 : (bytesToBits (b :: bs) ++ r).drop 8 = bytesToBits bs ++ r := by
      rw [bytesToBits_cons, List.append_assoc, List.drop_append_of_le_length (by omega),
        List.drop_eq_nil_iff.2 (by omega)]; rfl
    rw [dec8, dif_neg (by simp; omega), e2, ih, e1, bitsVal_natBits 8 _ b.toNat_lt]
    simp

theorem bits_dec8 (l : List Bool) (bs : Bytes) (h : dec8 l = some bs) :
    ∃ r, l = bytesToBits bs ++ r ∧ r.length < 5 ∧ r.all (! ·) = true := by
  induction hn : l.length using Nat.strongRecOn generalizing l bs with
  | _ n ih =>
    rw [dec8] at h
    split at h
    · split at h
      · rename_i h1
        injection h with h; subst h
        exact ⟨l, rfl, h1.1, h1.2⟩
      · cases h
    · rename_i h8
      split at h
      · rename_i bs' hb
        injection h with h; subst h
        obtain ⟨r, h1, h2, h3⟩ := ih (l.drop 8).length (by rw [← hn]; simp; omega) _ _ hb rfl
        refine ⟨r, ?_, h2, h3⟩
        have hlen : (l.take 8).length = 8 := by rw [List.length_take]; omega
        have hv := bitsVal_lt (l.take 8)
        rw [hlen] at hv
        rw [bytesToBits_cons, UInt8.toNat_ofNat', Nat.mod_eq_of_lt hv, natBits_bitsVal 8 _ hlen,
          List.append_assoc, ← h1, List.take_append_drop]
      · cases h

/-- Decoding an encoding gives the bytes back. -/
theorem decode_encode (bs : Bytes) : decode (encode bs) = some bs := by
  rw [decode, encode, symBits_enc5, padded]
  simp only
  apply dec8_bits
  · simp; omega
  · simp

/-- Everything the decoder accepts is the encoding of the result. -/
theorem encode_decode (s bs : Bytes) (h : decode s = some bs) : encode bs = s := by
  rw [decode] at h
  split at h
  · rename_i l hl
    obtain ⟨h1, h2⟩ := enc5_symBits s l hl
    obtain ⟨r, h3, h4, h5⟩ := bits_dec8 l bs h
    have hlen := congrArg List.length h3
    rw [List.length_append, bytesToBits_length, h2] at hlen
    have hr : r = List.replicate r.length false := by
      rw [List.eq_replicate_iff]
      refine ⟨rfl, fun b hb => ?_⟩
      have := List.all_eq_true.1 h5 b hb
      simpa using this
    have : l = padded (bytesToBits bs) := by
      rw [h3, padded, hr, bytesToBits_length]
      congr 2
      omega
    have hp : symBits (encode bs) = some l := by rw [encode, symBits_enc5, this]
    rw [← (enc5_symBits _ _ hp).1, h1]
  · cases h

theorem encode_injective (a b : Bytes) (h : encode a = encode b) : a = b := by
  have := decode_encode a
  rw [h, decode_encode] at this
  injection this with this; exact this.symm

theorem enc5_length (l : List Bool) : (enc5 l).length = (l.length + 4) / 5 := by
  induction hn : l.length using Nat.strongRecOn generalizing l with
  | _ n ih =>
    cases l with
    | nil => simp at hn; subst hn; simp [enc5]
    | cons b bs =>
      rw [enc5, List.length_cons, ih ((b :: bs).drop 5).length (by rw [← hn]; simp; omega) _ rfl]
      simp at hn ⊢; omega

/-- Length of the text form. -/
theorem encode_length (bs : Bytes) : (encode bs).length = (8 * bs.length + 4) / 5 := by
  rw [encode, enc5_length, bytesToBits_length]

end Verif.Base32
