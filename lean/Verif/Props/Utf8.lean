import Verif.Model.Codec
/-!
# UTF-8

Which byte strings are texts, said by the encoding of characters (RFC 3629), and that the check of the reader agrees.
-/

namespace Verif.Props
open Verif Verif.Codec

/-- A Unicode scalar value. -/
def Scalar (c : Nat) : Prop := c < 0xd800 ∨ (0xdfff < c ∧ c < 0x110000)

/-- The encoding of a character. -/
def scalarBytes (c : Nat) : List Nat :=
  if c < 0x80 then [c]
  else if c < 0x800 then [0xc0 + c / 64, 0x80 + c % 64]
  else if c < 0x10000 then [0xe0 + c / 4096, 0x80 + c / 64 % 64, 0x80 + c % 64]
  else [0xf0 + c / 262144, 0x80 + c / 4096 % 64, 0x80 + c / 64 % 64, 0x80 + c % 64]

/-- The bytes encode a sequence of characters. -/
def IsUtf8 (s : Bytes) : Prop := ∃ cs : List Nat, (∀ c ∈ cs, Scalar c) ∧ s.map UInt8.toNat = cs.flatMap scalarBytes

theorem u8lt (a b : UInt8) : a < b ↔ a.toNat < b.toNat := UInt8.lt_iff_toNat_lt
theorem u8le (a b : UInt8) : a ≤ b ↔ a.toNat ≤ b.toNat := UInt8.le_iff_toNat_le
theorem u8eq (a b : UInt8) : a = b ↔ a.toNat = b.toNat := UInt8.toNat_inj.symm

theorem utf8Cont_iff (b : UInt8) : utf8Cont b = true ↔ 0x80 ≤ b.toNat ∧ b.toNat < 0xc0 := by
  rw [utf8Cont, decide_eq_true_eq, u8le, u8lt]
  rfl

theorem utf8_two (a b : UInt8) (s : Bytes) : utf8 (a :: b :: s) =
    if a < 0x80 then utf8 (b :: s)
    else if 0xc2 ≤ a ∧ a < 0xe0 then utf8Cont b && utf8 s
    else match s with
      | [] => false
      | c :: s =>
        if 0xe0 ≤ a ∧ a < 0xf0 then
          utf8Cont b && utf8Cont c && decide (a = 0xe0 → 0xa0 ≤ b) && decide (a = 0xed → b < 0xa0) && utf8 s
        else match s with
          | [] => false
          | d :: s =>
            decide (0xf0 ≤ a ∧ a < 0xf5) && utf8Cont b && utf8Cont c && utf8Cont d && decide (a = 0xf0 → 0x90 ≤ b) &&
              decide (a = 0xf4 → b < 0x90) && utf8 s := by
  rw [utf8.eq_def]
  cases s with
  | nil => rfl
  | cons c s => cases s <;> rfl

/-- What is left after the first character. -/
theorem utf8_cons_iff (a : UInt8) (s : Bytes) :
    utf8 (a :: s) = true ↔ ∃ c t, Scalar c ∧ (a :: s).map UInt8.toNat = scalarBytes c ++ t.map UInt8.toNat ∧
      utf8 t = true := by
  constructor
  · intro h
    by_cases h1 : a.toNat < 0x80
    · refine ⟨a.toNat, s, Or.inl (by omega), by rw [scalarBytes, if_pos h1]; rfl, ?_⟩
      cases s with
      | nil => rfl
      | cons b s =>
        rw [utf8_two, if_pos ((u8lt _ _).2 h1)] at h
        exact h
    · cases s with
      | nil => exact absurd ((u8lt _ _).1 (of_decide_eq_true h)) h1
      | cons b s =>
        rw [utf8_two, if_neg (fun e => h1 ((u8lt _ _).1 e))] at h
        by_cases h2 : 0xc2 ≤ a.toNat ∧ a.toNat < 0xe0
        · rw [if_pos ⟨(u8le _ _).2 h2.1, (u8lt _ _).2 h2.2⟩, Bool.and_eq_true, utf8Cont_iff] at h
          refine ⟨(a.toNat - 0xc0) * 64 + (b.toNat - 0x80), s, Or.inl (by omega), ?_, h.2⟩
          rw [scalarBytes, if_neg (by omega), if_pos (by omega)]
          simp only [List.map_cons, List.cons_append, List.nil_append, List.cons.injEq, and_true]
          omega
        · rw [if_neg (fun e : 0xc2 ≤ a ∧ a < 0xe0 => h2 ⟨(u8le _ _).1 e.1, (u8lt _ _).1 e.2⟩)] at h
          cases s with
          | nil => cases h
          | cons c s =>
            dsimp only at h
            by_cases h3 : 0xe0 ≤ a.toNat ∧ a.toNat < 0xf0
            · rw [if_pos ⟨(u8le _ _).2 h3.1, (u8lt _ _).2 h3.2⟩] at h
              simp only [Bool.and_eq_true, utf8Cont_iff, decide_eq_true_eq, u8eq, u8le, u8lt] at h
              obtain ⟨⟨⟨⟨g1, g2⟩, g3⟩, g4⟩, g5⟩ := h
              have e1 : UInt8.toNat 0xe0 = 0xe0 := rfl
              have e2 : UInt8.toNat 0xa0 = 0xa0 := rfl
              have e3 : UInt8.toNat 0xed = 0xed := rfl
              rw [e1, e2] at g3
              rw [e2, e3] at g4
              refine ⟨(a.toNat - 0xe0) * 4096 + (b.toNat - 0x80) * 64 + (c.toNat - 0x80), s, ?_, ?_, g5⟩
              · unfold Scalar
                omega
              · rw [scalarBytes, if_neg (by omega), if_neg (by omega), if_pos (by omega)]
                simp only [List.map_cons, List.cons_append, List.nil_append, List.cons.injEq, and_true]
                omega
            · rw [if_neg (fun e : 0xe0 ≤ a ∧ a < 0xf0 => h3 ⟨(u8le _ _).1 e.1, (u8lt _ _).1 e.2⟩)] at h
              cases s with
              | nil => cases h
              | cons d s =>
                simp only [Bool.and_eq_true, utf8Cont_iff, decide_eq_true_eq, u8eq, u8le, u8lt] at h
                obtain ⟨⟨⟨⟨⟨⟨g1, g2⟩, g3⟩, g4⟩, g5⟩, g6⟩, g7⟩ := h
                have e1 : UInt8.toNat 0xf0 = 0xf0 := rfl
                have e2 : UInt8.toNat 0xf5 = 0xf5 := rfl
                have e3 : UInt8.toNat 0xf4 = 0xf4 := rfl
                have e4 : UInt8.toNat 0x90 = 0x90 := rfl
                rw [e1, e2] at g1
                rw [e1, e4] at g5
                rw [e3, e4] at g6
                refine ⟨(a.toNat - 0xf0) * 262144 + (b.toNat - 0x80) * 4096 + (c.toNat - 0x80) * 64 + (d.toNat - 0x80),
                  s, ?_, ?_, g7⟩
                · unfold Scalar
                  omega
                · rw [scalarBytes, if_neg (by omega), if_neg (by omega), if_neg (by omega)]
                  simp only [List.map_cons, List.cons_append, List.nil_append, List.cons.injEq, and_true]
                  omega
  · rintro ⟨c, t, hc, he, ht⟩
    unfold Scalar at hc
    have inj : ∀ {x y : Bytes}, x.map UInt8.toNat = y.map UInt8.toNat → x = y :=
      fun h => (List.map_inj_right (fun a b e => UInt8.toNat_inj.1 e)).1 h
    rw [scalarBytes] at he
    by_cases h1 : c < 0x80
    · rw [if_pos h1] at he
      simp only [List.map_cons, List.cons_append, List.nil_append, List.cons.injEq] at he
      obtain ⟨e1, e2⟩ := he
      have ha : a < 0x80 := (u8lt _ _).2 (by rw [e1]; exact h1)
      have := inj e2
      subst this
      cases s with
      | nil => rw [utf8]; exact decide_eq_true ha
      | cons b s => rw [utf8_two, if_pos ha]; exact ht
    · rw [if_neg h1] at he
      by_cases h2 : c < 0x800
      · rw [if_pos h2] at he
        cases s with
        | nil => simp at he
        | cons b s =>
          simp only [List.map_cons, List.cons_append, List.nil_append, List.cons.injEq] at he
          obtain ⟨e1, e2, e3⟩ := he
          have := inj e3
          subst this
          rw [utf8_two, if_neg (by rw [u8lt]; show ¬ a.toNat < 0x80; omega),
            if_pos (by rw [u8le, u8lt]; show 0xc2 ≤ a.toNat ∧ a.toNat < 0xe0; omega), Bool.and_eq_true, utf8Cont_iff]
          exact ⟨by omega, ht⟩
      · rw [if_neg h2] at he
        by_cases h3 : c < 0x10000
        · rw [if_pos h3] at he
          cases s with
          | nil => simp at he
          | cons b s =>
            cases s with
            | nil => simp at he
            | cons d s =>
              simp only [List.map_cons, List.cons_append, List.nil_append, List.cons.injEq] at he
              obtain ⟨e1, e2, e3, e4⟩ := he
              have := inj e4
              subst this
              rw [utf8_two, if_neg (by rw [u8lt]; show ¬ a.toNat < 0x80; omega),
                if_neg (by rw [u8le, u8lt]; show ¬ (0xc2 ≤ a.toNat ∧ a.toNat < 0xe0); omega)]
              dsimp only
              rw [if_pos (by rw [u8le, u8lt]; show 0xe0 ≤ a.toNat ∧ a.toNat < 0xf0; omega)]
              simp only [Bool.and_eq_true, utf8Cont_iff, decide_eq_true_eq, u8eq, u8le, u8lt]
              refine ⟨⟨⟨⟨by omega, by omega⟩, ?_⟩, ?_⟩, ht⟩
              · show a.toNat = 0xe0 → 0xa0 ≤ b.toNat
                omega
              · show a.toNat = 0xed → b.toNat < 0xa0
                omega
        · rw [if_neg h3] at he
          cases s with
          | nil => simp at he
          | cons b s =>
            cases s with
            | nil => simp at he
            | cons d s =>
              cases s with
              | nil => simp at he
              | cons f s =>
                simp only [List.map_cons, List.cons_append, List.nil_append, List.cons.injEq] at he
                obtain ⟨e1, e2, e3, e4, e5⟩ := he
                have := inj e5
                subst this
                rw [utf8_two, if_neg (by rw [u8lt]; show ¬ a.toNat < 0x80; omega),
                  if_neg (by rw [u8le, u8lt]; show ¬ (0xc2 ≤ a.toNat ∧ a.toNat < 0xe0); omega)]
                dsimp only
                rw [if_neg (by rw [u8le, u8lt]; show ¬ (0xe0 ≤ a.toNat ∧ a.toNat < 0xf0); omega)]
                simp only [Bool.and_eq_true, utf8Cont_iff, decide_eq_true_eq, u8eq, u8le, u8lt]
                refine ⟨⟨⟨⟨⟨⟨?_, by omega⟩, by omega⟩, by omega⟩, ?_⟩, ?_⟩, ht⟩
                · show 0xf0 ≤ a.toNat ∧ a.toNat < 0xf5
                  omega
                · show a.toNat = 0xf0 → 0x90 ≤ b.toNat
                  omega
                · show a.toNat = 0xf4 → b.toNat < 0x90
                  omega

theorem scalarBytes_ne_nil (c : Nat) : scalarBytes c ≠ [] := by
  unfold scalarBytes
  split
  · simp
  · split
    · simp
    · split <;> simp

/-- The check of the reader accepts exactly the texts. -/
theorem utf8_iff (s : Bytes) : utf8 s = true ↔ IsUtf8 s := by
  induction h : s.length using Nat.strongRecOn generalizing s with
  | _ n ih =>
    cases s with
    | nil => exact ⟨fun _ => ⟨[], by simp, rfl⟩, fun _ => rfl⟩
    | cons a s =>
      rw [utf8_cons_iff]
      have len : ∀ c (t : Bytes), (a :: s).map UInt8.toNat = scalarBytes c ++ t.map UInt8.toNat → t.length < n := by
        intro c t e
        have e' := congrArg List.length e
        have := List.length_pos_iff.2 (scalarBytes_ne_nil c)
        simp at e'
        simp at h
        omega
      constructor
      · rintro ⟨c, t, hc, he, ht⟩
        obtain ⟨cs, h1, h2⟩ := (ih _ (len c t he) t rfl).1 ht
        refine ⟨c :: cs, ?_, by rw [he, h2]; rfl⟩
        intro x hx
        rcases List.mem_cons.1 hx with rfl | hx
        · exact hc
        · exact h1 x hx
      · rintro ⟨cs, h1, h2⟩
        cases cs with
        | nil => simp at h2
        | cons c cs =>
          rw [List.flatMap_cons] at h2
          have hl : ∀ l : List Nat, (∀ x ∈ l, x < 256) → ∃ t : Bytes, t.map UInt8.toNat = l := by
            intro l hl
            refine ⟨l.map UInt8.ofNat, ?_⟩
            rw [List.map_map]
            conv => rhs; rw [← List.map_id l]
            exact List.map_congr_left fun x hx => by
              show (UInt8.ofNat x).toNat = x
              rw [UInt8.toNat_ofNat']
              exact Nat.mod_eq_of_lt (hl x hx)
          obtain ⟨t, ht⟩ := hl (cs.flatMap scalarBytes) (by
            intro x hx
            have : x ∈ (a :: s).map UInt8.toNat := by rw [h2]; exact List.mem_append_right _ hx
            rw [List.mem_map] at this
            obtain ⟨y, _, rfl⟩ := this
            exact y.toNat_lt)
          rw [← ht] at h2
          exact ⟨c, t, h1 c (by simp), h2, (ih _ (len c t h2) t rfl).2 ⟨cs, fun x hx => h1 x (by simp [hx]), ht⟩⟩

/-- An ASCII letter, an umlaut, the euro sign and a symbol outside the basic plane; a lone surrogate is refused. -/
example : utf8 [0x41, 0xc3, 0xbc, 0xe2, 0x82, 0xac, 0xf0, 0x9f, 0x98, 0x80] = true ∧ utf8 [0xed, 0xa0, 0x80] = false := by
  decide

end Verif.Props
