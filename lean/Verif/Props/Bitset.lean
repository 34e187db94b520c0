import Verif.Model.Bitset
/-!
# C06: the 256-bit set
-/

namespace Verif.Props
open Verif Verif.Bitset

/-- A call on a bit set. -/
inductive BitOp where
  | set (i : Nat)
  | clear (i : Nat)
  deriving Repr, DecidableEq

/-- The index a call names. -/
def BitOp.index : BitOp → Nat
  | .set i => i
  | .clear i => i

/-- Run a list of calls on the model. -/
def runBits (b : Bitset) : List BitOp → Res Empty Bitset
  | [] => .ok b
  | .set i :: ops => do runBits (← b.setBit i) ops
  | .clear i :: ops => do runBits (← b.clearBit i) ops

/-- Specification: membership after a list of calls, starting from the membership predicate `m`. -/
def specBits (m : Nat → Bool) : List BitOp → Nat → Bool
  | [] => m
  | .set i :: ops => specBits (fun j => if j = i then true else m j) ops
  | .clear i :: ops => specBits (fun j => if j = i then false else m j) ops

/-- The concrete set represents the abstract one. -/
def BitsRep (b : Bitset) (m : Nat → Bool) : Prop :=
  b.data.length = 4 ∧ ∀ i, i < 256 → b.bit i = .ok (m i)

theorem mask_and_ne_zero (w : BitVec 64) (i : Nat) :
    ((w &&& mask i) ≠ 0) ↔ w.getLsbD (i % 64) = true := by
  have hi : i % 64 < 64 := Nat.mod_lt _ (by decide)
  constructor
  · intro h
    by_cases hb : w.getLsbD (i % 64) = true
    · exact hb
    · exfalso; apply h
      apply BitVec.eq_of_getLsbD_eq
      intro j hj
      simp only [mask, BitVec.getLsbD_and, BitVec.getLsbD_shiftLeft, BitVec.getLsbD_one]
      by_cases e : j = i % 64
      · subst e; simp at hb; simp [hb]
      · simp; omega
  · intro hb h
    have := congrArg (fun v => BitVec.getLsbD v (i % 64)) h
    rw [BitVec.getLsbD_and, hb, mask, BitVec.getLsbD_shiftLeft] at this
    simp [hi] at this

theorem getLsbD_mask (i j : Nat) (hj : j < 64) : (mask i).getLsbD j = decide (j = i % 64) := by
  have hi : i % 64 < 64 := Nat.mod_lt _ (by decide)
  simp only [mask, BitVec.getLsbD_shiftLeft, BitVec.getLsbD_one, hj]
  by_cases e : j = i % 64
  · subst e; simp
  · simp [e]; omega

theorem bit_eq (b : Bitset) (i : Nat) (w : BitVec 64) (h : b.data[i / 64]? = some w) :
    b.bit i = .ok (w.getLsbD (i % 64)) := by
  simp only [Bitset.bit, h]
  congr 1
  by_cases hb : w.getLsbD (i % 64) = true
  · rw [hb]; exact decide_eq_true ((mask_and_ne_zero w i).2 hb)
  · rw [Bool.not_eq_true] at hb; rw [hb]
    exact decide_eq_false (fun h' => by rw [(mask_and_ne_zero w i).1 h'] at hb; cases hb)

theorem update_rep (b : Bitset) (m : Nat → Bool) (h : BitsRep b m) (i : Nat) (hi : i < 256)
    (v : Bool) (f : BitVec 64 → BitVec 64)
    (hf : ∀ (w : BitVec 64) j, j < 64 → (f w).getLsbD j = if j = i % 64 then v else w.getLsbD j) :
    ∃ w, b.data[i / 64]? = some w ∧
      BitsRep ⟨b.data.set (i / 64) (f w)⟩ (fun j => if j = i then v else m j) := by
  obtain ⟨hl, hm⟩ := h
  have hidx : i / 64 < b.data.length := by omega
  refine ⟨b.data[i / 64], List.getElem?_eq_getElem hidx, by simpa using hl, ?_⟩
  intro j hj
  have hjdx : j / 64 < b.data.length := by omega
  have hold := hm j hj
  rw [bit_eq b j _ (List.getElem?_eq_getElem hjdx)] at hold
  have hold' : b.data[j / 64].getLsbD (j % 64) = m j := by injection hold
  have hjm : j % 64 < 64 := Nat.mod_lt _ (by decide)
  by_cases hq : j / 64 = i / 64
  · have : (b.data.set (i / 64) (f b.data[i / 64]))[j / 64]? = some (f b.data[i / 64]) := by
      simp [hq, hidx]
    rw [bit_eq _ j _ this, hf _ _ hjm]
    congr 1
    by_cases e : j = i
    · simp [e]
    · have : ¬ j % 64 = i % 64 := by omega
      simp only [this, e, if_false, ← hold', hq]
  · have : (b.data.set (i / 64) (f b.data[i / 64]))[j / 64]? = some b.data[j / 64] := by
      rw [List.getElem?_set_ne (Ne.symm hq), List.getElem?_eq_getElem hjdx]
    rw [bit_eq _ j _ this, hold']
    have : ¬ j = i := fun e => hq (by rw [e])
    simp [this]

theorem setBit_rep (b : Bitset) (m : Nat → Bool) (h : BitsRep b m) (i : Nat) (hi : i < 256) :
    ∃ b', b.setBit i = .ok b' ∧ BitsRep b' (fun j => if j = i then true else m j) := by
  obtain ⟨w, hw, hr⟩ := update_rep b m h i hi true (fun w => w ||| mask i) (by
    intro w j hj
    simp only [BitVec.getLsbD_or, getLsbD_mask i j hj]
    by_cases e : j = i % 64 <;> simp [e])
  exact ⟨_, by simp only [Bitset.setBit, hw], hr⟩

theorem clearBit_rep (b : Bitset) (m : Nat → Bool) (h : BitsRep b m) (i : Nat) (hi : i < 256) :
    ∃ b', b.clearBit i = .ok b' ∧ BitsRep b' (fun j => if j = i then false else m j) := by
  obtain ⟨w, hw, hr⟩ := update_rep b m h i hi false (fun w => w &&& ~~~ (mask i)) (by
    intro w j hj
    simp only [BitVec.getLsbD_and, BitVec.getLsbD_not, getLsbD_mask i j hj]
    by_cases e : j = i % 64 <;> simp [e, hj])
  exact ⟨_, by simp only [Bitset.clearBit, hw], hr⟩

theorem runBits_rep (ops : List BitOp) (hops : ∀ o ∈ ops, o.index < 256) (b : Bitset)
    (m : Nat → Bool) (h : BitsRep b m) :
    ∃ b', runBits b ops = .ok b' ∧ BitsRep b' (specBits m ops) := by
  induction ops generalizing b m with
  | nil => exact ⟨b, rfl, h⟩
  | cons o ops ih =>
    have ho := hops o List.mem_cons_self
    have hr := fun o' h' => hops o' (List.mem_cons_of_mem _ h')
    cases o with
    | set i =>
      obtain ⟨b1, e1, r1⟩ := setBit_rep b m h i ho
      obtain ⟨b2, e2, r2⟩ := ih hr b1 _ r1
      exact ⟨b2, by simp [runBits, e1, e2], r2⟩
    | clear i =>
      obtain ⟨b1, e1, r1⟩ := clearBit_rep b m h i ho
      obtain ⟨b2, e2, r2⟩ := ih hr b1 _ r1
      exact ⟨b2, by simp [runBits, e1, e2], r2⟩

theorem empty_rep : BitsRep Bitset.empty (fun _ => false) := by
  refine ⟨rfl, fun i hi => ?_⟩
  have : Bitset.empty.data[i / 64]? = some 0#64 := by
    have : i / 64 < 4 := by omega
    rw [Bitset.empty, List.getElem?_replicate, if_pos this]
    rfl
  rw [bit_eq _ i _ this]; simp

/-- C06: after any sequence of calls with indices below 256 no call panics and
`bit` reports exactly the abstract set. -/
theorem C06_bitset_refines_set (ops : List BitOp) (hops : ∀ o ∈ ops, o.index < 256) :
    ∃ b, runBits Bitset.empty ops = .ok b ∧
      ∀ i, i < 256 → b.bit i = .ok (specBits (fun _ => false) ops i) := by
  obtain ⟨b, e, r⟩ := runBits_rep ops hops _ _ empty_rep
  exact ⟨b, e, r.2⟩

/-- C06: `is_zero` holds exactly when no index is a member. -/
theorem C06_is_zero_iff (ops : List BitOp) (hops : ∀ o ∈ ops, o.index < 256) (b : Bitset)
    (hb : runBits Bitset.empty ops = .ok b) :
    b.isZero = true ↔ ∀ i, i < 256 → specBits (fun _ => false) ops i = false := by
  obtain ⟨b', e, hl, r⟩ := runBits_rep ops hops _ _ empty_rep
  obtain rfl : b' = b := by rw [e] at hb; injection hb
  simp only [Bitset.isZero, beq_iff_eq]
  constructor
  · intro hz i hi
    have : b'.data[i / 64]? = some 0#64 := by
      have : i / 64 < 4 := by omega
      rw [hz, List.getElem?_replicate, if_pos this]
      rfl
    have h2 := r i hi
    rw [bit_eq _ i _ this] at h2
    injection h2 with h2; simpa using h2.symm
  · intro hz
    apply List.ext_getElem (by simp [hl])
    intro k hk hk'
    have hk4 : k < 4 := by omega
    rw [List.getElem_replicate]
    apply BitVec.eq_of_getLsbD_eq
    intro j hj
    have hlt : k * 64 + j < 256 := by omega
    have hdiv : (k * 64 + j) / 64 = k := by omega
    have hmod : (k * 64 + j) % 64 = j := by omega
    have h1 := r _ hlt
    rw [bit_eq b' _ b'.data[k] (by rw [hdiv]; exact List.getElem?_eq_getElem hk), hmod, hz _ hlt] at h1
    injection h1 with h1; simpa using h1

/-- C06: an index of 256 or more panics instead of touching another bit. -/
theorem C06_out_of_range_panics (b : Bitset) (hb : b.data.length = 4) (i : Nat) (hi : 256 ≤ i) :
    b.setBit i = .panic ∧ b.clearBit i = .panic ∧ b.bit i = .panic := by
  have : b.data[i / 64]? = none := List.getElem?_eq_none_iff.2 (by omega)
  simp [Bitset.setBit, Bitset.clearBit, Bitset.bit, this]

example : (∀ o ∈ [BitOp.set 3, .set 255, .clear 3], o.index < 256) ∧
    specBits (fun _ => false) [BitOp.set 3, .set 255, .clear 3] 255 = true ∧
    specBits (fun _ => false) [BitOp.set 3, .set 255, .clear 3] 3 = false := by decide

/-- A case of `C06_bitset_refines_set` and `C06_is_zero_iff`: two bits set and one of them cleared again; the other is left. -/
example : ∃ b, runBits Bitset.empty [.set 3, .set 255, .clear 3] = .ok b ∧ b.bit 255 = .ok true ∧ b.isZero = false := by
  obtain ⟨b, h1, h2⟩ := C06_bitset_refines_set [.set 3, .set 255, .clear 3] (by decide)
  refine ⟨b, h1, h2 255 (by decide), Bool.eq_false_iff.2 fun hz => ?_⟩
  have := (C06_is_zero_iff [.set 3, .set 255, .clear 3] (by decide) b h1).1 hz 255 (by decide)
  exact absurd this (by decide)

end Verif.Props
