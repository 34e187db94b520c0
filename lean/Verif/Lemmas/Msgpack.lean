import Verif.Model.Msgpack
import Mathlib.Tactic.Ring
/-!
# The MessagePack reader inverts the writer
-/

namespace Verif.Msgpack
open Verif Verif.Balance

mutual
/-- Values the writer can represent: integers of 64 bits, lengths of 32 bits, maps with as many values as keys. -/
def MP.Fits : MP → Prop
  | .nil => True
  | .bool _ => True
  | .uint n => n < 2 ^ 64
  | .neg n => n < 2 ^ 63
  | .float b => b.length = 4 ∨ b.length = 8
  | .str s => s.length < 2 ^ 32
  | .bin s => s.length < 2 ^ 32
  | .arr l => l.length < 2 ^ 32 ∧ FitsList l
  | .map kvs => kvs.length % 2 = 0 ∧ kvs.length / 2 < 2 ^ 32 ∧ FitsList kvs
/-- All values of a list fit. -/
def FitsList : List MP → Prop
  | [] => True
  | a :: l => a.Fits ∧ FitsList l
end

mutual
/-- Nesting depth. -/
def MP.depth : MP → Nat
  | .nil => 1
  | .bool _ => 1
  | .uint _ => 1
  | .neg _ => 1
  | .float _ => 1
  | .str _ => 1
  | .bin _ => 1
  | .arr l => depthList l + 1
  | .map kvs => depthList kvs + 1
/-- Largest depth of the values of a list. -/
def depthList : List MP → Nat
  | [] => 0
  | a :: l => max a.depth (depthList l)
end

theorem beBytes_len (k n : Nat) : (beBytes k n).length = k := by
  induction k generalizing n with
  | zero => rfl
  | succ k ih => rw [beBytes, List.length_append, ih]; rfl

theorem ofBE_snoc (a : Bytes) (b : UInt8) : ofBE (a ++ [b]) = ofBE a * 256 + b.toNat := by
  simp [ofBE]

theorem ofBE_beBytes (k n : Nat) (h : n < 256 ^ k) : ofBE (beBytes k n) = n := by
  induction k generalizing n with
  | zero => simp at h; subst h; rfl
  | succ k ih =>
    rw [beBytes, ofBE_snoc, ih (n / 256) (by rw [Nat.pow_succ] at h; omega)]
    simp; omega

theorem takeN_append (a r : Bytes) : takeN a.length (a ++ r) = some (a, r) := by
  simp [takeN]

theorem takeBE_append (k n : Nat) (r : Bytes) (h : n < 256 ^ k) : takeBE k (beBytes k n ++ r) = some (n, r) := by
  have := takeN_append (beBytes k n) r
  rw [beBytes_len] at this
  rw [takeBE, this]
  simp [ofBE_beBytes k n h]

theorem ofNat_toNat (n : Nat) (h : n < 256) : (UInt8.ofNat n).toNat = n := by simp; omega

theorem dec_uint (f : Nat) (n : Nat) (r : Bytes) (h : n < 2 ^ 64) : dec (f + 1) (encUint n ++ r) = some (.uint n, r) := by
  unfold encUint
  split
  · rename_i h1
    simp only [List.cons_append, List.nil_append, dec]
    rw [ofNat_toNat n (by omega)]
    simp [decBody, h1]
  · split
    · simp only [List.cons_append, dec]
      simp [decBody, takeBE_append 1 n r (by omega)]
    · split
      · simp only [List.cons_append, dec]
        simp [decBody, takeBE_append 2 n r (by omega)]
      · split
        · simp only [List.cons_append, dec]
          simp [decBody, takeBE_append 4 n r (by omega)]
        · simp only [List.cons_append, dec]
          simp [decBody, takeBE_append 8 n r (by omega)]

theorem dec_neg (f : Nat) (n : Nat) (r : Bytes) (h : n < 2 ^ 63) : dec (f + 1) (encNeg n ++ r) = some (.neg n, r) := by
  unfold encNeg
  split
  · rename_i h1
    simp only [List.cons_append, List.nil_append, dec]
    rw [ofNat_toNat _ (by omega)]
    simp only [decBody]
    rw [if_neg (by omega), if_neg (by omega), if_neg (by omega), if_neg (by omega), if_neg (by omega), if_neg (by omega),
      if_neg (by omega), if_neg (by omega), if_neg (by omega), if_neg (by omega), if_neg (by omega), if_neg (by omega),
      if_neg (by omega), if_neg (by omega), if_neg (by omega), if_neg (by omega), if_neg (by omega), if_neg (by omega),
      if_neg (by omega), if_neg (by omega), if_neg (by omega), if_neg (by omega), if_neg (by omega), if_neg (by omega),
      if_neg (by omega), if_neg (by omega), if_neg (by omega), if_pos (by omega)]
    rw [show 255 - (255 - n) = n by omega]
  · split
    · simp only [List.cons_append, dec]
      simp [decBody, takeBE_append 1 (255 - n) r (by omega), sint]
      rw [if_neg (by omega)]; congr 1; omega
    · split
      · simp only [List.cons_append, dec]
        simp [decBody, takeBE_append 2 (65535 - n) r (by omega), sint]
        rw [if_neg (by omega)]; congr 1; omega
      · split
        · simp only [List.cons_append, dec]
          simp [decBody, takeBE_append 4 (4294967295 - n) r (by omega), sint]
          rw [if_neg (by omega)]; congr 1; omega
        · simp only [List.cons_append, dec]
          simp [decBody, takeBE_append 8 (18446744073709551615 - n) r (by omega), sint]
          rw [if_neg (by omega)]; congr 1; omega

theorem dec_float (f : Nat) (b r : Bytes) (h : b.length = 4 ∨ b.length = 8) :
    dec (f + 1) ((if b.length = 4 then 0xca else 0xcb) :: b ++ r) = some (.float b, r) := by
  have ht := takeN_append b r
  rcases h with h | h
  · rw [h] at ht
    simp [dec, decBody, h, ht]
  · rw [h] at ht
    simp [dec, decBody, h, ht]

theorem dec_str (f : Nat) (s r : Bytes) (h : s.length < 2 ^ 32) :
    dec (f + 1) (strHeader s.length ++ (s ++ r)) = some (.str s, r) := by
  unfold strHeader
  split
  · rename_i h1
    simp only [List.cons_append, List.nil_append, dec]
    rw [ofNat_toNat _ (by omega)]
    simp only [decBody]
    rw [if_neg (by omega), if_neg (by omega), if_neg (by omega), if_pos (by omega), Nat.add_sub_cancel_left,
      takeN_append]
    rfl
  · split
    · simp only [List.cons_append, dec]
      simp [decBody, takeBE_append 1 s.length (s ++ r) (by omega), takeN_append]
    · split
      · simp only [List.cons_append, dec]
        simp [decBody, takeBE_append 2 s.length (s ++ r) (by omega), takeN_append]
      · simp only [List.cons_append, dec]
        simp [decBody, takeBE_append 4 s.length (s ++ r) (by omega), takeN_append]

theorem dec_bin (f : Nat) (s r : Bytes) (h : s.length < 2 ^ 32) :
    dec (f + 1) (binHeader s.length ++ (s ++ r)) = some (.bin s, r) := by
  unfold binHeader
  split
  · simp only [List.cons_append, dec]
    simp [decBody, takeBE_append 1 s.length (s ++ r) (by omega), takeN_append]
  · split
    · simp only [List.cons_append, dec]
      simp [decBody, takeBE_append 2 s.length (s ++ r) (by omega), takeN_append]
    · simp only [List.cons_append, dec]
      simp [decBody, takeBE_append 4 s.length (s ++ r) (by omega), takeN_append]

theorem dec_arr (f : Nat) (l : List MP) (e r : Bytes) (h : l.length < 2 ^ 32)
    (hd : decN (dec f) l.length (e ++ r) = some (l, r)) :
    dec (f + 1) (arrHeader l.length ++ (e ++ r)) = some (.arr l, r) := by
  unfold arrHeader
  split
  · rename_i h1
    simp only [List.cons_append, List.nil_append, dec]
    rw [ofNat_toNat _ (by omega)]
    simp only [decBody]
    rw [if_neg (by omega), if_neg (by omega), if_pos (by omega), Nat.add_sub_cancel_left, hd]
    rfl
  · split
    · simp only [List.cons_append, dec]
      simp [decBody, takeBE_append 2 l.length (e ++ r) (by omega), hd]
    · simp only [List.cons_append, dec]
      simp [decBody, takeBE_append 4 l.length (e ++ r) (by omega), hd]

theorem dec_map (f : Nat) (l : List MP) (e r : Bytes) (he : l.length % 2 = 0) (h : l.length / 2 < 2 ^ 32)
    (hd : decN (dec f) l.length (e ++ r) = some (l, r)) :
    dec (f + 1) (mapHeader (l.length / 2) ++ (e ++ r)) = some (.map l, r) := by
  have h2 : 2 * (l.length / 2) = l.length := by omega
  unfold mapHeader
  split
  · rename_i h1
    simp only [List.cons_append, List.nil_append, dec]
    rw [ofNat_toNat _ (by omega)]
    simp only [decBody]
    rw [if_neg (by omega), if_pos (by omega), Nat.add_sub_cancel_left, h2, hd]
    rfl
  · split
    · simp only [List.cons_append, dec]
      simp [decBody, takeBE_append 2 (l.length / 2) (e ++ r) (by omega), h2, hd]
    · simp only [List.cons_append, dec]
      simp [decBody, takeBE_append 4 (l.length / 2) (e ++ r) (by omega), h2, hd]

mutual
theorem dec_enc : ∀ (a : MP) (f : Nat) (r : Bytes), a.Fits → a.depth ≤ f → dec f (enc a ++ r) = some (a, r)
  | a, 0, r, _, hd => by cases a <;> simp [MP.depth] at hd
  | .nil, f + 1, r, _, _ => by simp [enc, dec, decBody]
  | .bool false, f + 1, r, _, _ => by simp [enc, dec, decBody]
  | .bool true, f + 1, r, _, _ => by simp [enc, dec, decBody]
  | .uint n, f + 1, r, h, _ => by rw [enc]; exact dec_uint f n r (by simpa [MP.Fits] using h)
  | .neg n, f + 1, r, h, _ => by rw [enc]; exact dec_neg f n r (by simpa [MP.Fits] using h)
  | .float b, f + 1, r, h, _ => by rw [enc]; exact dec_float f b r (by simpa [MP.Fits] using h)
  | .str s, f + 1, r, h, _ => by
    rw [enc, List.append_assoc]; exact dec_str f s r (by simpa [MP.Fits] using h)
  | .bin s, f + 1, r, h, _ => by
    rw [enc, List.append_assoc]; exact dec_bin f s r (by simpa [MP.Fits] using h)
  | .arr l, f + 1, r, h, hd => by
    rw [enc, List.append_assoc]
    rw [MP.Fits] at h
    rw [MP.depth] at hd
    exact dec_arr f l (encList l) r h.1 (decN_enc l f r h.2 (by omega))
  | .map l, f + 1, r, h, hd => by
    rw [enc, List.append_assoc]
    rw [MP.Fits] at h
    rw [MP.depth] at hd
    exact dec_map f l (encList l) r h.1 h.2.1 (decN_enc l f r h.2.2 (by omega))
theorem decN_enc : ∀ (l : List MP) (f : Nat) (r : Bytes), FitsList l → depthList l ≤ f →
    decN (dec f) l.length (encList l ++ r) = some (l, r)
  | [], f, r, _, _ => by simp [encList, decN]
  | a :: l, f, r, h, hd => by
    rw [FitsList] at h
    rw [depthList] at hd
    rw [encList, List.length_cons, decN, List.append_assoc, dec_enc a f (encList l ++ r) h.1 (by omega)]
    show (decN (dec f) l.length (encList l ++ r)).bind _ = _
    rw [decN_enc l f r h.2 (by omega)]
    rfl
end

theorem encUint_pos (n : Nat) : 1 ≤ (encUint n).length := by unfold encUint; (repeat' split) <;> simp
theorem encNeg_pos (n : Nat) : 1 ≤ (encNeg n).length := by unfold encNeg; (repeat' split) <;> simp
theorem strHeader_pos (n : Nat) : 1 ≤ (strHeader n).length := by unfold strHeader; (repeat' split) <;> simp
theorem binHeader_pos (n : Nat) : 1 ≤ (binHeader n).length := by unfold binHeader; (repeat' split) <;> simp
theorem arrHeader_pos (n : Nat) : 1 ≤ (arrHeader n).length := by unfold arrHeader; (repeat' split) <;> simp
theorem mapHeader_pos (n : Nat) : 1 ≤ (mapHeader n).length := by unfold mapHeader; (repeat' split) <;> simp

mutual
theorem depth_le : ∀ a : MP, a.depth ≤ (enc a).length
  | .nil => by simp [MP.depth, enc]
  | .bool false => by simp [MP.depth, enc]
  | .bool true => by simp [MP.depth, enc]
  | .uint n => by rw [MP.depth, enc]; exact encUint_pos n
  | .neg n => by rw [MP.depth, enc]; exact encNeg_pos n
  | .float b => by rw [MP.depth, enc]; simp
  | .str s => by have := strHeader_pos s.length; rw [MP.depth, enc, List.length_append]; omega
  | .bin s => by have := binHeader_pos s.length; rw [MP.depth, enc, List.length_append]; omega
  | .arr l => by
    have := arrHeader_pos l.length
    have := depthList_le l
    rw [MP.depth, enc, List.length_append]; omega
  | .map l => by
    have := mapHeader_pos (l.length / 2)
    have := depthList_le l
    rw [MP.depth, enc, List.length_append]; omega
theorem depthList_le : ∀ l : List MP, depthList l ≤ (encList l).length
  | [] => by simp [depthList]
  | a :: l => by
    have := depth_le a
    have := depthList_le l
    rw [depthList, encList, List.length_append]; omega
end

/-- Reading back what was written gives the value and leaves the rest. -/
theorem decode_enc (a : MP) (r : Bytes) (h : a.Fits) : decode (enc a ++ r) = some (a, r) := by
  have := depth_le a
  rw [decode]
  exact dec_enc a _ r h (by rw [List.length_append]; omega)

/-- Two values whose encodings start two equal strings are equal. -/
theorem enc_inj_append {a b : MP} {r s : Bytes} (ha : a.Fits) (hb : b.Fits) (h : enc a ++ r = enc b ++ s) :
    a = b ∧ r = s := by
  have h1 := decode_enc a r ha
  rw [h, decode_enc b s hb] at h1
  simpa using h1.symm

/-- The encoding is injective. -/
theorem enc_inj {a b : MP} (ha : a.Fits) (hb : b.Fits) (h : enc a = enc b) : a = b :=
  (enc_inj_append (r := []) (s := []) ha hb (by simpa using h)).1

end Verif.Msgpack
