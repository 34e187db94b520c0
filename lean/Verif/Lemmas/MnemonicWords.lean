import Verif.Lemmas.Mnemonic
import Verif.Model.WordList
import Mathlib.Data.List.Nodup
/-!
# Word lookup lemmas, and facts about the shipped word list
-/

namespace Verif.Mnemonic
open Verif Verif.Digits

variable {W : Type} [DecidableEq W]

theorem wordsAt_ok_iff {ε : Type} (words : List W) (ds : List Nat) (ws : List W) :
    (wordsAt words ds : Res ε (List W)) = .ok ws ↔
      ws.length = ds.length ∧ ∀ (i d : Nat), ds[i]? = some d → ∃ w, ws[i]? = some w ∧ words[d]? = some w := by
  induction ds generalizing ws with
  | nil =>
    simp only [wordsAt, Res.ok.injEq, List.length_nil, List.length_eq_zero_iff]
    constructor
    · rintro rfl; simp
    · intro h; exact h.1.symm
  | cons d ds ih =>
    simp only [wordsAt, wordAt]
    constructor
    · intro h
      rw [Res.bind_eq_ok] at h
      obtain ⟨w, h1, h2⟩ := h
      rw [Res.bind_eq_ok] at h2
      obtain ⟨ws', h3, h4⟩ := h2
      simp only [Res.pure_eq, Res.ok.injEq] at h4
      subst h4
      have hw : words[d]? = some w := by
        revert h1; cases words[d]? <;> simp
      obtain ⟨hl, hi⟩ := (ih ws').1 h3
      refine ⟨by simp [hl], ?_⟩
      intro i e he
      cases i with
      | zero => simp only [List.getElem?_cons_zero, Option.some.injEq] at he; subst he; exact ⟨w, rfl, hw⟩
      | succ i => simp only [List.getElem?_cons_succ] at he ⊢; exact hi i e he
    · rintro ⟨hl, hi⟩
      cases ws with
      | nil => simp at hl
      | cons w ws' =>
        obtain ⟨w0, h0, h1⟩ := hi 0 d rfl
        simp only [List.getElem?_cons_zero, Option.some.injEq] at h0
        subst h0
        have := (ih ws').2 ⟨by simpa using hl, fun i e he => hi (i + 1) e (by simpa using he)⟩
        simp [h1, this]

theorem wordsAt_total {ε : Type} (words : List W) (ds : List Nat) (h : ∀ d ∈ ds, d < words.length) :
    ∃ ws, (wordsAt words ds : Res ε (List W)) = .ok ws := by
  induction ds with
  | nil => exact ⟨[], rfl⟩
  | cons d ds ih =>
    obtain ⟨ws, hws⟩ := ih (fun x hx => h x (List.mem_cons_of_mem _ hx))
    have hd := h d List.mem_cons_self
    exact ⟨words[d] :: ws, by simp [wordsAt, wordAt, hws, List.getElem?_eq_getElem hd]⟩

theorem findIdx_get (words : List W) (w : W) (p : Nat)
    (h : words.findIdx? (· == w) = some p) : words[p]? = some w := by
  rw [List.findIdx?_eq_some_iff_getElem] at h
  obtain ⟨hp, hw, _⟩ := h
  rw [List.getElem?_eq_getElem hp, beq_iff_eq.1 hw]

theorem get_findIdx (words : List W) (hn : words.Nodup) (w : W) (p : Nat)
    (h : words[p]? = some w) : words.findIdx? (· == w) = some p := by
  obtain ⟨hp, hw⟩ := List.getElem?_eq_some_iff.1 h
  rw [List.findIdx?_eq_some_iff_getElem]
  refine ⟨hp, by simp [hw], fun j hj => ?_⟩
  simp only [beq_iff_eq]
  intro e
  rw [← hw] at e
  have := (List.Nodup.getElem_inj_iff hn).1 e
  omega

/-- `position` of every word, when it succeeds, is the inverse of the lookup. -/
theorem positions_ok_iff (words : List W) (hn : words.Nodup) (ws : List W) (ps : List Nat) :
    positions words ws = .ok ps ↔
      ws.length = ps.length ∧ ∀ (i d : Nat), ps[i]? = some d → ∃ w, ws[i]? = some w ∧ words[d]? = some w := by
  rw [← wordsAt_ok_iff (ε := MnemonicError W)]
  induction ws generalizing ps with
  | nil =>
    cases ps with
    | nil => simp [positions, wordsAt]
    | cons p ps =>
      rw [wordsAt_ok_iff]; simp [positions]
  | cons w ws ih =>
    cases ps with
    | nil =>
      simp only [positions, wordsAt, Res.ok.injEq, List.nil_eq, reduceCtorEq, iff_false]
      cases words.findIdx? (· == w) with
      | none => simp
      | some p => simp only; intro h; rw [Res.bind_eq_ok] at h; obtain ⟨_, _, h⟩ := h; cases h
    | cons p ps =>
      constructor
      · intro h
        simp only [positions] at h
        cases hf : words.findIdx? (· == w) with
        | none => simp [hf] at h
        | some q =>
          simp only [hf] at h
          rw [Res.bind_eq_ok] at h
          obtain ⟨qs, h1, h2⟩ := h
          simp only [Res.pure_eq, Res.ok.injEq, List.cons.injEq] at h2
          obtain ⟨rfl, rfl⟩ := h2
          simp [wordsAt, wordAt, findIdx_get words w q hf, (ih qs).1 h1]
      · intro h
        simp only [wordsAt, wordAt] at h
        rw [Res.bind_eq_ok] at h
        obtain ⟨w', h1, h2⟩ := h
        rw [Res.bind_eq_ok] at h2
        obtain ⟨ws', h3, h4⟩ := h2
        simp only [Res.pure_eq, Res.ok.injEq, List.cons.injEq] at h4
        obtain ⟨rfl, rfl⟩ := h4
        have hw : words[p]? = some w' := by
          revert h1; cases words[p]? <;> simp
        simp [positions, get_findIdx words hn w' p hw, (ih ps).2 h3]

theorem positions_known (words : List W) (ws : List W) (h : ∀ w ∈ ws, w ∈ words) :
    ∃ ps, positions words ws = .ok ps := by
  induction ws with
  | nil => exact ⟨[], rfl⟩
  | cons w ws ih =>
    obtain ⟨ps, hps⟩ := ih (fun x hx => h x (List.mem_cons_of_mem _ hx))
    cases hf : words.findIdx? (· == w) with
    | none =>
      rw [List.findIdx?_eq_none_iff] at hf
      have := hf w (h w List.mem_cons_self)
      simp at this
    | some p => exact ⟨p :: ps, by simp [positions, hf, hps]⟩

theorem positions_unknown (words : List W) (pre : List W) (w : W) (post : List W)
    (hpre : ∀ x ∈ pre, x ∈ words) (hw : w ∉ words) :
    positions words (pre ++ w :: post) = .err (.invalidWord w) := by
  induction pre with
  | nil =>
    have : words.findIdx? (· == w) = none := by
      rw [List.findIdx?_eq_none_iff]; intro x hx
      simp only [beq_eq_false_iff_ne]; rintro rfl; exact hw hx
    simp [positions, this]
  | cons x pre ih =>
    have ih' := ih (fun y hy => hpre y (List.mem_cons_of_mem _ hy))
    cases hf : words.findIdx? (· == x) with
    | none =>
      rw [List.findIdx?_eq_none_iff] at hf
      have := hf x (hpre x List.mem_cons_self)
      simp at this
    | some p => simp [positions, hf, ih']

/-- The checksum digit: the low 11 bits of the first two hash bytes. -/
theorem checksum_eq {ε : Type} (hash : Bytes → Bytes) (data : Bytes) (h0 h1 : UInt8) (tl : Bytes)
    (h : hash data = h0 :: h1 :: tl) :
    (checksum hash data : Res ε Nat) = .ok ((h0.toNat + 256 * h1.toNat) % 2048) := by
  obtain ⟨a, b, c⟩ := toBase11_spec [h0, h1]
  simp only [checksum, h, List.length_cons, Nat.le_add_left, if_true, List.take_succ_cons,
    List.take_zero]
  match hb : toBase11 [h0, h1], a, b, c with
  | [], _, b, _ => simp at b
  | d :: ds, a, b, c =>
    simp only [List.getElem?_cons_zero, Res.ok.injEq]
    have hd := a d List.mem_cons_self
    simp only [val_cons, nums, List.map_cons, List.map_nil, val_nil, Nat.mul_zero, Nat.add_zero] at c
    rw [← c, Nat.add_mul_mod_self_left, Nat.mod_eq_of_lt hd]

/-- Ordering code of a word of at most eight ASCII letters. -/
def wordCode (w : List Char) : Nat :=
  (w.foldl (fun a c => a * 256 + c.toNat) 0) * 256 ^ (8 - w.length)

/-- Strictly increasing list. -/
def increasing : List Nat → Bool
  | a :: b :: l => decide (a < b) && increasing (b :: l)
  | _ => true

theorem increasing_lt : ∀ (l : List Nat) (a : Nat), increasing (a :: l) = true → ∀ x ∈ l, a < x
  | [], _, _, x, hx => by cases hx
  | b :: l, a, h, x, hx => by
    simp only [increasing, Bool.and_eq_true, decide_eq_true_eq] at h
    rcases List.mem_cons.1 hx with rfl | hx
    · exact h.1
    · exact Nat.lt_trans h.1 (increasing_lt l b h.2 x hx)

theorem increasing_nodup : ∀ l : List Nat, increasing l = true → l.Nodup
  | [], _ => List.nodup_nil
  | [a], _ => by simp
  | a :: b :: l, h => by
    rw [List.nodup_cons]
    refine ⟨fun hm => Nat.lt_irrefl _ (increasing_lt _ a h a hm), increasing_nodup (b :: l) ?_⟩
    simp only [increasing, Bool.and_eq_true] at h
    exact h.2

/-- Lower-case ASCII letter. -/
def isLower (c : Char) : Bool := decide (97 ≤ c.toNat) && decide (c.toNat ≤ 122)

/-- Everything that is computed from the whole file. -/
theorem englishWords_check :
    englishWords.length = 2048 ∧ increasing (englishWords.map wordCode) = true ∧
    englishWords.all (fun w => w.all isLower && !w.isEmpty) = true := by decide +kernel

theorem englishWords_length : englishWords.length = 2048 := englishWords_check.1

theorem englishWords_nodup : englishWords.Nodup :=
  List.Nodup.of_map wordCode (increasing_nodup _ englishWords_check.2.1)

theorem englishWords_lower (w : List Char) (hw : w ∈ englishWords) :
    w ≠ [] ∧ ∀ c ∈ w, isWhitespace c = false := by
  have := List.all_eq_true.1 englishWords_check.2.2 w hw
  simp only [Bool.and_eq_true, List.all_eq_true, Bool.not_eq_true', List.isEmpty_eq_false_iff] at this
  refine ⟨this.2, fun c hc => ?_⟩
  have h2 := this.1 c hc
  simp only [isLower, Bool.and_eq_true, decide_eq_true_eq] at h2
  simp only [isWhitespace, Bool.or_eq_false_iff, decide_eq_false_iff_not]
  omega

theorem splitWs_word (w : List Char) (hw : ∀ c ∈ w, isWhitespace c = false) (cur rest : List Char) :
    splitWsAux cur (w ++ rest) = splitWsAux (cur ++ w) rest := by
  induction w generalizing cur with
  | nil => simp
  | cons c w ih =>
    have hc := hw c List.mem_cons_self
    rw [List.cons_append, splitWsAux, hc]
    simp only [Bool.false_eq_true, if_false]
    rw [ih (fun x hx => hw x (List.mem_cons_of_mem _ hx))]
    simp

theorem splitWs_ws (ws : List Char) (h : ∀ c ∈ ws, isWhitespace c = true) (rest : List Char) :
    splitWsAux [] (ws ++ rest) = splitWsAux [] rest := by
  induction ws with
  | nil => rfl
  | cons c ws ih =>
    have hc := h c List.mem_cons_self
    rw [List.cons_append, splitWsAux, hc]
    simp only [List.isEmpty_nil, if_true]
    exact ih (fun x hx => h x (List.mem_cons_of_mem _ hx))

end Verif.Mnemonic
