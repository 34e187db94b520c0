import Verif.Model.Mnemonic
import Verif.Base.Digits
import Mathlib.Tactic.Ring
/-!
# Lemmas about 11-bit / 8-bit repacking
-/

namespace Verif.Mnemonic
open Verif Verif.Digits

theorem or_shl32 (buf x bits n : Nat) (hb : buf < 2 ^ bits) (hx : x < 2 ^ n)
    (hn : bits + n ≤ 32) : buf ||| shl32 x bits = buf + 2 ^ bits * x := by
  have hlt : x <<< bits < 2 ^ 32 := by
    rw [Nat.shiftLeft_eq]
    calc x * 2 ^ bits < 2 ^ n * 2 ^ bits := Nat.mul_lt_mul_of_pos_right hx (Nat.two_pow_pos _)
      _ = 2 ^ (bits + n) := by rw [← Nat.pow_add, Nat.add_comm]
      _ ≤ 2 ^ 32 := Nat.pow_le_pow_right (by decide) hn
  rw [shl32, Nat.mod_eq_of_lt hlt, Nat.or_comm, ← Nat.shiftLeft_add_eq_or_of_lt hb,
    Nat.shiftLeft_eq, Nat.mul_comm, Nat.add_comm]

theorem and_7ff (x : Nat) : x &&& 0x7ff = x % 2 ^ 11 := Nat.and_two_pow_sub_one_eq_mod x 11

/-- The bytes as numbers. -/
def nums (bs : List UInt8) : List Nat := bs.map UInt8.toNat

theorem nums_lt (bs : List UInt8) : ∀ d ∈ nums bs, d < 256 := by
  intro d hd
  simp only [nums, List.mem_map] at hd
  obtain ⟨b, _, rfl⟩ := hd
  exact b.toNat_lt

theorem nums_inj (a b : List UInt8) (h : nums a = nums b) : a = b := by
  induction a generalizing b with
  | nil => cases b with
    | nil => rfl
    | cons => simp [nums] at h
  | cons x a ih => cases b with
    | nil => simp [nums] at h
    | cons y b =>
      simp only [nums, List.map_cons, List.cons.injEq] at h
      rw [UInt8.toNat_inj.mp h.1, ih b h.2]

theorem nums_append (a b : List UInt8) : nums (a ++ b) = nums a ++ nums b := by simp [nums]

@[simp] theorem nums_length (a : List UInt8) : (nums a).length = a.length := by simp [nums]

theorem base11Loop_spec (xs : List UInt8) (out : List Nat) (buf bits : Nat)
    (hbits : bits < 11) (hbuf : buf < 2 ^ bits) (hout : ∀ d ∈ out, d < 2048) :
    let r := base11Loop xs out buf bits
    r.2.2 < 11 ∧ r.2.1 < 2 ^ r.2.2 ∧ (∀ d ∈ r.1, d < 2048) ∧
    11 * r.1.length + r.2.2 = 11 * out.length + bits + 8 * xs.length ∧
    val 2048 r.1 + 2048 ^ r.1.length * r.2.1
      = val 2048 out + 2048 ^ out.length * (buf + 2 ^ bits * val 256 (nums xs)) := by
  induction xs generalizing out buf bits with
  | nil => simp [base11Loop, hbits, hbuf, nums]; exact hout
  | cons x xs ih =>
    have hx : x.toNat < 2 ^ 8 := x.toNat_lt
    have hor := or_shl32 buf x.toNat bits 8 hbuf hx (by omega)
    have hlt : buf + 2 ^ bits * x.toNat < 2 ^ (bits + 8) := by
      have : 2 ^ bits * (x.toNat + 1) ≤ 2 ^ bits * 2 ^ 8 := Nat.mul_le_mul_left _ hx
      rw [Nat.pow_add]; rw [Nat.mul_add, Nat.mul_one] at this; omega
    have hv : val 256 (nums (x :: xs)) = x.toNat + 256 * val 256 (nums xs) := rfl
    simp only [base11Loop, hor]
    split
    · rename_i hge
      have hge' : 11 ≤ bits + 8 := hge
      have hb' : (buf + 2 ^ bits * x.toNat) >>> 11 < 2 ^ (bits + 8 - 11) := by
        rw [Nat.shiftRight_eq_div_pow, Nat.div_lt_iff_lt_mul (Nat.two_pow_pos _), ← Nat.pow_add]
        rwa [Nat.sub_add_cancel hge']
      have hout' : ∀ d ∈ out ++ [(buf + 2 ^ bits * x.toNat) &&& 0x7ff], d < 2048 := by
        intro d hd
        rw [List.mem_append] at hd
        rcases hd with hd | hd
        · exact hout d hd
        · rw [List.mem_singleton] at hd; subst hd; rw [and_7ff]; exact Nat.mod_lt _ (by decide)
      obtain ⟨h1, h2, h3, h4, h5⟩ := ih _ _ _ (by omega) hb' hout'
      refine ⟨h1, h2, h3, ?_, ?_⟩
      · rw [h4, List.length_append, List.length_singleton, List.length_cons]; omega
      · rw [h5, hv, val_concat, and_7ff, List.length_append, List.length_singleton,
          Nat.shiftRight_eq_div_pow]
        have hdm := Nat.mod_add_div (buf + 2 ^ bits * x.toNat) (2 ^ 11)
        have hp : 2 ^ (bits + 8 - 11) * 2 ^ 11 = 2 ^ bits * 256 := by
          rw [← Nat.pow_add, Nat.sub_add_cancel hge', Nat.pow_add]
        generalize hm : (buf + 2 ^ bits * x.toNat) % 2 ^ 11 = m at *
        generalize hq : (buf + 2 ^ bits * x.toNat) / 2 ^ 11 = q at *
        generalize hV : val 256 (nums xs) = V
        generalize 2 ^ (bits + 8 - 11) = P at *
        generalize 2 ^ bits = Q at *
        have e1 : (2048 : Nat) ^ (out.length + 1) = 2048 ^ out.length * 2 ^ 11 := by
          rw [Nat.pow_succ]; norm_num
        rw [e1]
        generalize (2048 : Nat) ^ out.length = T
        calc val 2048 out + T * m + T * 2 ^ 11 * (q + P * V)
            = val 2048 out + T * ((m + 2 ^ 11 * q) + P * 2 ^ 11 * V) := by ring
          _ = val 2048 out + T * ((buf + Q * x.toNat) + Q * 256 * V) := by rw [hdm, hp]
          _ = _ := by ring
    · rename_i hlt'
      obtain ⟨h1, h2, h3, h4, h5⟩ := ih out _ _ (by omega) hlt hout
      refine ⟨h1, h2, h3, ?_, ?_⟩
      · rw [h4]; simp only [List.length_cons]; omega
      · rw [h5, hv, Nat.pow_add]
        ring

/-- `to_base11` preserves the value and produces `⌈8 n / 11⌉` digits below 2048. -/
theorem toBase11_spec (xs : List UInt8) :
    (∀ d ∈ toBase11 xs, d < 2048) ∧ (toBase11 xs).length = (8 * xs.length + 10) / 11 ∧
    val 2048 (toBase11 xs) = val 256 (nums xs) := by
  obtain ⟨h1, h2, h3, h4, h5⟩ := base11Loop_spec xs [] 0 0 (by decide) (by decide) (by simp)
  simp only [List.length_nil, val_nil, Nat.pow_zero, Nat.one_mul, Nat.zero_add, Nat.mul_zero] at h4 h5
  simp only [toBase11]
  split
  · rename_i hne
    have hbuf : (base11Loop xs [] 0 0).2.1 < 2 ^ 11 :=
      Nat.lt_of_lt_of_le h2 (Nat.pow_le_pow_right (by decide) (by omega))
    refine ⟨?_, ?_, ?_⟩
    · intro d hd
      rw [List.mem_append] at hd
      rcases hd with hd | hd
      · exact h3 d hd
      · rw [List.mem_singleton] at hd; subst hd; rw [and_7ff]; exact Nat.mod_lt _ (by decide)
    · rw [List.length_append, List.length_singleton]; omega
    · rw [val_concat, and_7ff, Nat.mod_eq_of_lt hbuf, h5]
  · rename_i hz
    rw [ne_eq, Decidable.not_not] at hz
    rw [hz] at h2 h4
    have hb0 : (base11Loop xs [] 0 0).2.1 = 0 := by omega
    refine ⟨h3, by omega, ?_⟩
    rw [hb0] at h5; simpa using h5

theorem drain8_spec (out : List UInt8) (buf bits : Nat) (hbuf : buf < 2 ^ bits) :
    let r := drain8 out buf bits
    r.2.2 < 8 ∧ r.2.1 < 2 ^ r.2.2 ∧
    8 * r.1.length + r.2.2 = 8 * out.length + bits ∧
    val 256 (nums r.1) + 256 ^ r.1.length * r.2.1
      = val 256 (nums out) + 256 ^ out.length * buf := by
  induction bits using Nat.strongRecOn generalizing out buf with
  | _ bits ih =>
    rw [drain8]
    split
    · rename_i hge
      have hge' : 8 ≤ bits := hge
      have hb' : buf >>> 8 < 2 ^ (bits - 8) := by
        rw [Nat.shiftRight_eq_div_pow, Nat.div_lt_iff_lt_mul (Nat.two_pow_pos _), ← Nat.pow_add]
        rwa [Nat.sub_add_cancel hge']
      obtain ⟨h1, h2, h3, h4⟩ := ih (bits - 8) (by omega) (out ++ [UInt8.ofNat buf]) (buf >>> 8) hb'
      refine ⟨h1, h2, ?_, ?_⟩
      · rw [h3]; simp only [List.length_append, List.length_singleton]; omega
      · have hn : nums [UInt8.ofNat buf] = [buf % 256] := by simp [nums]
        rw [h4, nums_append, hn, val_concat, nums_length, List.length_append,
          List.length_singleton, Nat.shiftRight_eq_div_pow, Nat.pow_succ]
        have := Nat.mod_add_div buf 256
        calc _ = val 256 (nums out) + 256 ^ out.length * (buf % 256 + 256 * (buf / 256)) := by
              norm_num; ring
          _ = _ := by rw [this]
    · rename_i hlt
      exact ⟨Nat.lt_of_not_le hlt, hbuf, rfl, rfl⟩

theorem base8Loop_spec (xs : List Nat) (hxs : ∀ d ∈ xs, d < 2048) (out : List UInt8)
    (buf bits : Nat) (hbits : bits < 8) (hbuf : buf < 2 ^ bits) :
    let r := base8Loop xs out buf bits
    r.2.2 < 8 ∧ r.2.1 < 2 ^ r.2.2 ∧
    8 * r.1.length + r.2.2 = 8 * out.length + bits + 11 * xs.length ∧
    val 256 (nums r.1) + 256 ^ r.1.length * r.2.1
      = val 256 (nums out) + 256 ^ out.length * (buf + 2 ^ bits * val 2048 xs) := by
  induction xs generalizing out buf bits with
  | nil => simp [base8Loop, hbits, hbuf]
  | cons x xs ih =>
    have hx : x < 2 ^ 11 := hxs x List.mem_cons_self
    have hor := or_shl32 buf x bits 11 hbuf hx (by omega)
    have hlt : buf + 2 ^ bits * x < 2 ^ (bits + 11) := by
      have : 2 ^ bits * (x + 1) ≤ 2 ^ bits * 2 ^ 11 := Nat.mul_le_mul_left _ hx
      rw [Nat.pow_add]; rw [Nat.mul_add, Nat.mul_one] at this; omega
    simp only [base8Loop, hor]
    obtain ⟨d1, d2, d3, d4⟩ := drain8_spec out _ _ hlt
    obtain ⟨h1, h2, h3, h4⟩ := ih (fun d hd => hxs d (List.mem_cons_of_mem _ hd)) _ _ _ d1 d2
    refine ⟨h1, h2, ?_, ?_⟩
    · rw [h3, d3]; simp only [List.length_cons]; omega
    · rw [h4, Nat.mul_add, ← Nat.add_assoc, d4, val_cons]
      have hp : 256 ^ (drain8 out (buf + 2 ^ bits * x) (bits + 11)).1.length *
          2 ^ (drain8 out (buf + 2 ^ bits * x) (bits + 11)).2.2
          = 256 ^ out.length * 2 ^ bits * 2048 := by
        have e : (256 : Nat) = 2 ^ 8 := rfl
        have e2 : (2048 : Nat) = 2 ^ 11 := rfl
        rw [e, e2, ← Nat.pow_mul, ← Nat.pow_mul, ← Nat.pow_add, ← Nat.pow_add, ← Nat.pow_add, d3]
        congr 1
      rw [← Nat.mul_assoc (256 ^ (drain8 out (buf + 2 ^ bits * x) (bits + 11)).1.length), hp]
      ring

/-- `to_base8` on `8 k` digits (so that no bits are left over). -/
theorem toBase8_spec (xs : List Nat) (hxs : ∀ d ∈ xs, d < 2048) (k : Nat)
    (hk : 11 * xs.length = 8 * k) :
    (toBase8 xs).length = k ∧ val 256 (nums (toBase8 xs)) = val 2048 xs := by
  obtain ⟨h1, h2, h3, h4⟩ := base8Loop_spec xs hxs [] 0 0 (by decide) (by decide)
  simp only [List.length_nil, Nat.pow_zero, Nat.one_mul, Nat.zero_add, Nat.mul_zero, nums,
    List.map_nil, val_nil] at h3 h4
  have hz : (base8Loop xs [] 0 0).2.2 = 0 := by omega
  rw [hz] at h2 h3
  have hb0 : (base8Loop xs [] 0 0).2.1 = 0 := by omega
  rw [hb0] at h4
  simp only [toBase8, hz, ne_eq, not_true_eq_false, if_false]
  exact ⟨by omega, by simpa [nums] using h4⟩

end Verif.Mnemonic
