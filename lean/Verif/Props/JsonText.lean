import Verif.Model.JsonText
import Verif.Props.KeyFile
import Verif.Props.Config
import Verif.Props.ConsensusFile
/-!
# C152: the text of JSON files

The specification is the grammar of RFC 8259, with the limits of the library on nesting and on integers.
-/

namespace Verif.Props
open Verif Verif.Config Verif.Consensus

/-! ## Specification -/

/-- White space. -/
def JWs (w : Str) : Prop := ∀ c ∈ w, c = ' ' ∨ c = '\n' ∨ c = '\t' ∨ c = '\r'

/-- One or more decimal digits. -/
def JDigits (ds : Str) : Prop := ds ≠ [] ∧ ∀ c ∈ ds, 48 ≤ c.toNat ∧ c.toNat ≤ 57

/-- The number written by digits, most significant first. -/
def decSum : Str → Nat
  | [] => 0
  | c :: t => (c.toNat - 48) * 10 ^ t.length + decSum t

/-- `int`: no superfluous zero at the front. -/
def JInt (ds : Str) : Prop := JDigits ds ∧ (ds.head? = some '0' → ds = ['0'])

/-- `[frac]`. -/
def JFrac (f : Str) : Prop := f = [] ∨ ∃ ds, JDigits ds ∧ f = '.' :: ds

/-- `[exp]`. -/
def JExp (e : Str) : Prop :=
  e = [] ∨ ∃ c sg ds, (c = 'e' ∨ c = 'E') ∧ (sg = [] ∨ sg = ['+'] ∨ sg = ['-']) ∧ JDigits ds ∧ e = c :: (sg ++ ds)

/-- `number`, with the value that the code sees: integers of `u64` and `i64` exactly, all else as floating point. -/
inductive JNum : Json → Str → Prop
  | nat {ds} : JInt ds → decSum ds < 2 ^ 64 → JNum (.num (decSum ds)) ds
  | neg {ds} : JInt ds → 0 < decSum ds → decSum ds ≤ 2 ^ 63 → JNum (.num (-(decSum ds : Int))) ('-' :: ds)
  | big {ds} : JInt ds → 2 ^ 64 ≤ decSum ds → JNum .float ds
  | negBig {ds} : JInt ds → decSum ds = 0 ∨ 2 ^ 63 < decSum ds → JNum .float ('-' :: ds)
  | real {sg ds f e} : sg = [] ∨ sg = ['-'] → JInt ds → JFrac f → JExp e → f ++ e ≠ [] →
      JNum .float (sg ++ (ds ++ (f ++ e)))

/-- A hexadecimal digit and its value. -/
def JHexD (c : Char) (v : Nat) : Prop :=
  (v < 10 ∧ c.toNat = 48 + v) ∨ (10 ≤ v ∧ v < 16 ∧ (c.toNat = 55 + v ∨ c.toNat = 87 + v))

/-- Four hexadecimal digits and their value. -/
def JHex (n : Nat) (h : Str) : Prop :=
  ∃ a b c d va vb vc vd, h = [a, b, c, d] ∧ JHexD a va ∧ JHexD b vb ∧ JHexD c vc ∧ JHexD d vd ∧
    n = va * 4096 + vb * 256 + vc * 16 + vd

/-- `char`: the ways to write one character of a string. -/
inductive JChar : Char → Str → Prop
  | plain {c} : c ≠ '"' → c ≠ '\\' → 0x20 ≤ c.toNat → JChar c [c]
  | short {e c} : (e, c) ∈ [('"', '"'), ('\\', '\\'), ('/', '/'), ('b', Char.ofNat 8), ('f', Char.ofNat 12), ('n', '\n'),
      ('r', '\r'), ('t', '\t')] → JChar c ['\\', e]
  | code {c h} : JHex c.toNat h → JChar c ('\\' :: 'u' :: h)
  | pair {c n m h l} : JHex n h → JHex m l → 0xD800 ≤ n → n ≤ 0xDBFF → 0xDC00 ≤ m → m ≤ 0xDFFF →
      c.toNat = 0x10000 + (n - 0xD800) * 0x400 + (m - 0xDC00) → JChar c ('\\' :: 'u' :: (h ++ '\\' :: 'u' :: l))

/-- The characters of a string. -/
inductive JChars : Str → Str → Prop
  | nil : JChars [] []
  | cons {c x s e} : JChar c x → JChars s e → JChars (c :: s) (x ++ e)

/-- `string`. -/
def JString (s t : Str) : Prop := ∃ e, JChars s e ∧ t = '"' :: (e ++ ['"'])

mutual
/-- `value`, with at most `d` arrays and objects open at a time. -/
inductive JVal : Nat → Json → Str → Prop
  | null {d} : JVal d .null ['n', 'u', 'l', 'l']
  | tru {d} : JVal d (.bool true) ['t', 'r', 'u', 'e']
  | fls {d} : JVal d (.bool false) ['f', 'a', 'l', 's', 'e']
  | num {d j s} : JNum j s → JVal d j s
  | str {d s t} : JString s t → JVal d (.str s) t
  | arr0 {d w} : JWs w → JVal (d + 1) (.arr []) ('[' :: (w ++ [']']))
  | arr {d w l e} : JWs w → JElems d l e → JVal (d + 1) (.arr l) ('[' :: (w ++ (e ++ [']'])))
  | obj0 {d w} : JWs w → JVal (d + 1) (.obj []) ('{' :: (w ++ ['}']))
  | obj {d w l e} : JWs w → JMems d l e → JVal (d + 1) (.obj l) ('{' :: (w ++ (e ++ ['}'])))

/-- The elements of an array. -/
inductive JElems : Nat → List Json → Str → Prop
  | one {d j s w} : JVal d j s → JWs w → JElems d [j] (s ++ w)
  | cons {d j s w w' l e} : JVal d j s → JWs w → JWs w' → JElems d l e →
      JElems d (j :: l) (s ++ (w ++ ',' :: (w' ++ e)))

/-- The members of an object. -/
inductive JMems : Nat → List (Str × Json) → Str → Prop
  | one {d k q w₁ w₂ j s w} : JString k q → JWs w₁ → JWs w₂ → JVal d j s → JWs w →
      JMems d [(k, j)] (q ++ (w₁ ++ ':' :: (w₂ ++ (s ++ w))))
  | cons {d k q w₁ w₂ j s w w' l e} : JString k q → JWs w₁ → JWs w₂ → JVal d j s → JWs w → JWs w' → JMems d l e →
      JMems d ((k, j) :: l) (q ++ (w₁ ++ ':' :: (w₂ ++ (s ++ (w ++ ',' :: (w' ++ e))))))
end

/-- `JSON-text`. -/
def JText (d : Nat) (j : Json) (s : Str) : Prop := ∃ w p w', s = w ++ (p ++ w') ∧ JWs w ∧ JVal d j p ∧ JWs w'

/-- What can be written and read back: integers in range, limited nesting, no floating point. -/
inductive Plain : Nat → Json → Prop
  | null {d} : Plain d .null
  | bool {d b} : Plain d (.bool b)
  | num {d} {n : Int} : -2 ^ 63 ≤ n → n < 2 ^ 64 → Plain d (.num n)
  | str {d s} : Plain d (.str s)
  | arr {d l} : (∀ j ∈ l, Plain d j) → Plain (d + 1) (.arr l)
  | obj {d} {l : List (Str × Json)} : (∀ e ∈ l, Plain d e.2) → Plain (d + 1) (.obj l)

/-! ## White space and digits -/

theorem isWs_iff (c : Char) : isWs c = true ↔ c = ' ' ∨ c = '\n' ∨ c = '\t' ∨ c = '\r' := by
  simp [isWs, or_assoc]

theorem mem_takeWhile_true {p : Char → Bool} {c : Char} {s : Str} (h : c ∈ s.takeWhile p) : p c = true := by
  induction s with
  | nil => cases h
  | cons x s ih =>
    rw [List.takeWhile_cons] at h
    split at h
    · rename_i hx
      rcases List.mem_cons.1 h with rfl | h
      · exact hx
      · exact ih h
    · cases h

theorem skipWs_app {w : Str} (h : JWs w) (s : Str) : skipWs (w ++ s) = skipWs s := by
  unfold skipWs
  rw [List.dropWhile_append_of_pos]
  intro c hc
  exact (isWs_iff c).2 (h c hc)

theorem skipWs_split (s : Str) : ∃ w, JWs w ∧ s = w ++ skipWs s := by
  refine ⟨s.takeWhile isWs, ?_, (List.takeWhile_append_dropWhile).symm⟩
  intro c hc
  exact (isWs_iff c).1 (mem_takeWhile_true hc)

theorem skipWs_stop {c : Char} (h : isWs c = false) (t : Str) : skipWs (c :: t) = c :: t := by
  simp [skipWs, List.dropWhile, h]

theorem isDigit_iff (c : Char) : isDigit c = true ↔ 48 ≤ c.toNat ∧ c.toNat ≤ 57 := by
  simp [isDigit]

/-- The text does not go on with a digit. -/
def NoDigit (r : Str) : Prop := ∀ c t, r = c :: t → isDigit c = false

theorem takeDigits {ds r : Str} (h : ∀ c ∈ ds, 48 ≤ c.toNat ∧ c.toNat ≤ 57) (hr : NoDigit r) :
    (ds ++ r).takeWhile isDigit = ds ∧ (ds ++ r).dropWhile isDigit = r := by
  have h' : ∀ c ∈ ds, isDigit c = true := fun c hc => (isDigit_iff c).2 (h c hc)
  rw [List.takeWhile_append_of_pos h', List.dropWhile_append_of_pos h']
  cases r with
  | nil => simp
  | cons c t => simp [List.takeWhile, List.dropWhile, hr c t rfl]

theorem digitsVal_app (ds : Str) (a : Nat) :
    ds.foldl (fun n c => 10 * n + (c.toNat - 48)) a = a * 10 ^ ds.length + decSum ds := by
  induction ds generalizing a with
  | nil => simp [decSum]
  | cons c t ih =>
    rw [List.foldl_cons, ih, decSum, List.length_cons, Nat.pow_succ]
    ring

theorem digitsVal_eq (ds : Str) : digitsVal ds = decSum ds := by
  rw [digitsVal, digitsVal_app]; simp

theorem char_eq {a b : Char} (h : a.toNat = b.toNat) : a = b := by
  apply Char.ext
  exact UInt32.toNat_inj.1 h

theorem JInt_iff {ds : Str} (h : JInt ds) : ds = ['0'] ∨ ∃ c t, ds = c :: t ∧ c ≠ '0' ∧ isDigit c = true ∧
    ∀ x ∈ t, 48 ≤ x.toNat ∧ x.toNat ≤ 57 := by
  obtain ⟨⟨h1, h2⟩, h3⟩ := h
  cases ds with
  | nil => exact absurd rfl h1
  | cons c t =>
    by_cases hc : c = '0'
    · exact .inl (h3 (by rw [hc]; rfl))
    · exact .inr ⟨c, t, rfl, hc, (isDigit_iff c).2 (h2 c List.mem_cons_self), fun x hx => h2 x (List.mem_cons_of_mem _ hx)⟩

/-! ## Numbers -/

theorem intPart_sound {s ds r : Str} (h : intPart s = some (ds, r)) : s = ds ++ r ∧ JInt ds := by
  cases s with
  | nil => cases h
  | cons c t =>
    rw [intPart] at h
    split at h
    · rename_i hc
      cases h
      subst hc
      exact ⟨rfl, ⟨by simp, by simp⟩, fun _ => rfl⟩
    · rename_i hc
      split at h
      · rename_i hd
        cases h
        refine ⟨by rw [List.cons_append, List.takeWhile_append_dropWhile], ⟨by simp, ?_⟩, ?_⟩
        · intro x hx
          rcases List.mem_cons.1 hx with rfl | hx
          · exact (isDigit_iff _).1 hd
          · exact (isDigit_iff _).1 (mem_takeWhile_true hx)
        · intro e
          rw [List.head?_cons] at e
          injection e with e
          exact absurd e hc
      · cases h

theorem intPart_complete {ds r : Str} (h : JInt ds) (hr : NoDigit r) : intPart (ds ++ r) = some (ds, r) := by
  rcases JInt_iff h with rfl | ⟨c, t, rfl, h1, h2, h3⟩
  · rfl
  · rw [List.cons_append, intPart, if_neg h1, if_pos h2, (takeDigits h3 hr).1, (takeDigits h3 hr).2]

theorem fracPart_sound {s r : Str} {b : Bool} (h : fracPart s = some (b, r)) :
    ∃ f, s = f ++ r ∧ JFrac f ∧ (b = true ↔ f ≠ []) := by
  cases s with
  | nil => cases h; exact ⟨[], rfl, .inl rfl, by simp⟩
  | cons c t =>
    rw [fracPart] at h
    split at h
    · rename_i hc
      subst hc
      split at h
      · cases h
      · rename_i hne
        cases h
        refine ⟨'.' :: t.takeWhile isDigit, by rw [List.cons_append, List.takeWhile_append_dropWhile],
          .inr ⟨_, ⟨hne, ?_⟩, rfl⟩, by simp⟩
        intro x hx
        exact (isDigit_iff _).1 (mem_takeWhile_true hx)
    · cases h
      exact ⟨[], rfl, .inl rfl, by simp⟩

theorem expPart_sound {s r : Str} {b : Bool} (h : expPart s = some (b, r)) :
    ∃ f, s = f ++ r ∧ JExp f ∧ (b = true ↔ f ≠ []) := by
  cases s with
  | nil => cases h; exact ⟨[], rfl, .inl rfl, by simp⟩
  | cons c t =>
    rw [expPart] at h
    split at h
    · rename_i hc
      split at h
      · cases h
      · rename_i hne
        cases h
        have hs : ∃ sg, (sg = [] ∨ sg = ['+'] ∨ sg = ['-']) ∧ t = sg ++ dropSign t := by
          cases t with
          | nil => exact ⟨[], .inl rfl, rfl⟩
          | cons x u =>
            rw [dropSign]
            split
            · rename_i hx
              exact ⟨[x], .inr (by simpa using hx), rfl⟩
            · exact ⟨[], .inl rfl, rfl⟩
        obtain ⟨sg, h1, h2⟩ := hs
        refine ⟨c :: (sg ++ (dropSign t).takeWhile isDigit), ?_, .inr ⟨c, sg, _, hc, h1, ⟨hne, ?_⟩, rfl⟩, by simp⟩
        · rw [List.cons_append, List.append_assoc, List.takeWhile_append_dropWhile, ← h2]
        · intro x hx
          exact (isDigit_iff _).1 (mem_takeWhile_true hx)
    · cases h
      exact ⟨[], rfl, .inl rfl, by simp⟩

/-- The text goes on with something that cannot belong to a value. -/
def Stop (r : Str) : Prop := ∀ c t, r = c :: t → isWs c = true ∨ c = ',' ∨ c = ']' ∨ c = '}'

theorem Stop.noDigit {r : Str} (h : Stop r) : NoDigit r := by
  intro c t e
  rcases h c t e with h | rfl | rfl | rfl
  · rcases (isWs_iff c).1 h with rfl | rfl | rfl | rfl <;> decide
  all_goals decide

theorem Stop.expPart {r : Str} (h : Stop r) : expPart r = some (false, r) := by
  cases r with
  | nil => rfl
  | cons c t =>
    rw [Verif.Config.expPart, if_neg]
    rcases h c t rfl with h | rfl | rfl | rfl
    · rcases (isWs_iff c).1 h with rfl | rfl | rfl | rfl <;> decide
    all_goals decide

theorem Stop.fracPart {r : Str} (h : Stop r) : fracPart r = some (false, r) := by
  cases r with
  | nil => rfl
  | cons c t =>
    rw [Verif.Config.fracPart, if_neg]
    rcases h c t rfl with h | rfl | rfl | rfl
    · rcases (isWs_iff c).1 h with rfl | rfl | rfl | rfl <;> decide
    all_goals decide

theorem expPart_complete {e r : Str} (h : JExp e) (hr : Stop r) :
    expPart (e ++ r) = some (decide (e ≠ []), r) := by
  rcases h with rfl | ⟨c, sg, ds, hc, hs, ⟨hd0, hd⟩, rfl⟩
  · exact hr.expPart
  · have hds : dropSign (sg ++ (ds ++ r)) = ds ++ r := by
      rcases hs with rfl | rfl | rfl
      · cases ds with
        | nil => exact absurd rfl hd0
        | cons x u =>
          rw [List.nil_append, List.cons_append, dropSign, if_neg]
          have := hd x List.mem_cons_self
          rintro (rfl | rfl) <;> revert this <;> decide
      · rfl
      · rfl
    rw [List.cons_append, List.append_assoc, expPart, if_pos hc, hds, (takeDigits hd hr.noDigit).1,
      (takeDigits hd hr.noDigit).2, if_neg hd0]
    simp

theorem fracPart_complete {f e r : Str} (h : JFrac f) (he : JExp e) (hr : Stop r) :
    fracPart (f ++ (e ++ r)) = some (decide (f ≠ []), e ++ r) := by
  have hnd : NoDigit (e ++ r) := by
    rcases he with rfl | ⟨c, sg, ds, hc, _, _, rfl⟩
    · exact hr.noDigit
    · intro x t e
      rw [List.cons_append] at e
      injection e with e _
      subst e
      rcases hc with rfl | rfl <;> decide
  rcases h with rfl | ⟨ds, ⟨hd0, hd⟩, rfl⟩
  · rcases he with rfl | ⟨c, sg, ds, hc, _, _, rfl⟩
    · exact hr.fracPart
    · rw [List.nil_append, List.cons_append, fracPart, if_neg (by rcases hc with rfl | rfl <;> decide)]
      simp
  · rw [List.cons_append, fracPart, if_pos rfl, (takeDigits hd hnd).1, (takeDigits hd hnd).2, if_neg hd0]
    simp

theorem number_complete {neg : Bool} {ds f e r : Str} (h : JInt ds) (hf : JFrac f) (he : JExp e) (hr : Stop r) :
    number neg (ds ++ (f ++ (e ++ r))) = some (if f ++ e ≠ [] then .float else intVal neg (decSum ds), r) := by
  have hnd : NoDigit (f ++ (e ++ r)) := by
    intro x t eq
    rcases hf with rfl | ⟨ds', _, rfl⟩
    · rcases he with rfl | ⟨c, sg, ds', hc, _, _, rfl⟩
      · exact hr.noDigit x t eq
      · rw [List.nil_append, List.cons_append] at eq
        injection eq with eq _
        subst eq
        rcases hc with rfl | rfl <;> decide
    · rw [List.cons_append] at eq
      injection eq with eq _
      subst eq
      decide
  rw [number, intPart_complete h hnd]
  simp only [fracPart_complete hf he hr, expPart_complete he hr, digitsVal_eq]
  by_cases h1 : f = [] <;> by_cases h2 : e = [] <;> simp [h1, h2]

theorem number_sound {neg : Bool} {s r : Str} {j : Json} (h : number neg s = some (j, r)) :
    ∃ p, s = p ++ r ∧ JNum j (if neg then '-' :: p else p) := by
  rw [number] at h
  cases h1 : intPart s with
  | none => rw [h1] at h; cases h
  | some x1 =>
    obtain ⟨ds, t⟩ := x1
    rw [h1] at h
    simp only at h
    cases h2 : fracPart t with
    | none => rw [h2] at h; cases h
    | some x2 =>
      obtain ⟨fb, t2⟩ := x2
      rw [h2] at h
      simp only at h
      cases h3 : expPart t2 with
      | none => rw [h3] at h; cases h
      | some x3 =>
        obtain ⟨eb, t3⟩ := x3
        rw [h3] at h
        injection h with h
        injection h with hj hr
        subst hr
        obtain ⟨rfl, hi⟩ := intPart_sound h1
        obtain ⟨f, rfl, hf, hfb⟩ := fracPart_sound h2
        obtain ⟨e, rfl, he, heb⟩ := expPart_sound h3
        refine ⟨ds ++ (f ++ e), by simp, ?_⟩
        by_cases hfe : f ++ e = []
        · have hf0 : f = [] := (List.append_eq_nil_iff.1 hfe).1
          have he0 : e = [] := (List.append_eq_nil_iff.1 hfe).2
          have : fb = false := by cases fb <;> simp_all
          have : eb = false := by cases eb <;> simp_all
          subst hf0 he0
          simp only [*, Bool.or_self, Bool.false_eq_true, if_false, digitsVal_eq] at hj
          simp only [List.append_nil]
          rw [intVal] at hj
          cases neg with
          | true =>
            simp only [if_true] at hj ⊢
            split at hj
            · rename_i hn; subst hj; exact .neg hi hn.1 hn.2
            · rename_i hn; subst hj; exact .negBig hi (by omega)
          | false =>
            simp only [Bool.false_eq_true, if_false] at hj ⊢
            split at hj
            · rename_i hn; subst hj; exact .nat hi hn
            · rename_i hn; subst hj; exact .big hi (by omega)
        · have hb : (fb || eb) = true := by
            rw [Bool.or_eq_true, hfb, heb]
            by_contra hc
            push Not at hc
            exact hfe (by rw [hc.1, hc.2]; rfl)
          rw [if_pos hb] at hj
          subst hj
          cases neg with
          | true => exact .real (sg := ['-']) (.inr rfl) hi hf he hfe
          | false => exact .real (sg := []) (.inl rfl) hi hf he hfe

/-! ## Strings -/

theorem hexVal_iff (c : Char) (v : Nat) : hexVal c = some v ↔ JHexD c v := by
  unfold hexVal JHexD
  split
  · simp only [Option.some.injEq]; omega
  · split
    · simp only [Option.some.injEq]; omega
    · split
      · simp only [Option.some.injEq]; omega
      · simp only [reduceCtorEq, false_iff]; omega

theorem hex4_sound {s r : Str} {n : Nat} (h : hex4 s = some (n, r)) : ∃ p, s = p ++ r ∧ JHex n p := by
  unfold hex4 at h
  split at h
  · rename_i a b c d t
    split at h
    · rename_i va vb vc vd ha hb hc hd
      cases h
      exact ⟨[a, b, c, d], rfl, a, b, c, d, va, vb, vc, vd, rfl, (hexVal_iff _ _).1 ha, (hexVal_iff _ _).1 hb,
        (hexVal_iff _ _).1 hc, (hexVal_iff _ _).1 hd, by omega⟩
    · cases h
  · cases h

theorem hex4_complete {n : Nat} {p : Str} (h : JHex n p) (r : Str) : hex4 (p ++ r) = some (n, r) := by
  obtain ⟨a, b, c, d, va, vb, vc, vd, rfl, ha, hb, hc, hd, rfl⟩ := h
  simp only [List.cons_append, List.nil_append, hex4, (hexVal_iff _ _).2 ha, (hexVal_iff _ _).2 hb,
    (hexVal_iff _ _).2 hc, (hexVal_iff _ _).2 hd]
  congr 2
  omega

theorem JHex_lt {n : Nat} {p : Str} (h : JHex n p) : n < 65536 := by
  obtain ⟨a, b, c, d, va, vb, vc, vd, rfl, ha, hb, hc, hd, rfl⟩ := h
  unfold JHexD at *
  omega

theorem toNat_ofNat {n : Nat} (h : n < 0xD800 ∨ (0xDFFF < n ∧ n < 0x110000)) : (Char.ofNat n).toNat = n :=
  by rw [Char.ofNat, dif_pos (show n.isValidChar from h)]; rfl

theorem char_range (c : Char) : c.toNat < 0xD800 ∨ (0xDFFF < c.toNat ∧ c.toNat < 0x110000) := c.valid

theorem uniEsc_sound {s r : Str} {c : Char} (h : uniEsc s = some (c, r)) :
    ∃ p, s = p ++ r ∧ JChar c ('\\' :: 'u' :: p) := by
  unfold uniEsc at h
  split at h
  · cases h
  · rename_i n t hx
    obtain ⟨p, rfl, hp⟩ := hex4_sound hx
    split at h
    · cases h
    · rename_i h1
      split at h
      · rename_i h2
        split at h
        · rename_i t'
          split at h
          · cases h
          · rename_i m t'' hy
            obtain ⟨q, rfl, hq⟩ := hex4_sound hy
            split at h
            · rename_i h3
              injection h with h
              injection h with hc hr
              subst hr
              rw [← hc]
              refine ⟨p ++ '\\' :: 'u' :: q, by simp, .pair hp hq h2.1 h2.2 h3.1 h3.2 (toNat_ofNat (by omega))⟩
            · cases h
        · cases h
      · rename_i h2
        injection h with h
        injection h with hc hr
        subst hr
        rw [← hc]
        refine ⟨p, rfl, .code ?_⟩
        rwa [toNat_ofNat]
        have := JHex_lt hp
        omega

theorem escChar_iff (e c : Char) : escChar e = some c ↔ (e, c) ∈ [('"', '"'), ('\\', '\\'), ('/', '/'),
    ('b', Char.ofNat 8), ('f', Char.ofNat 12), ('n', '\n'), ('r', '\r'), ('t', '\t')] := by
  unfold escChar
  constructor
  · intro h
    (repeat' split at h) <;> first
      | (cases h; done)
      | (rename_i he; subst he; cases h; simp)
  · intro h
    simp only [List.mem_cons, Prod.mk.injEq, List.not_mem_nil, or_false] at h
    rcases h with ⟨rfl, rfl⟩ | ⟨rfl, rfl⟩ | ⟨rfl, rfl⟩ | ⟨rfl, rfl⟩ | ⟨rfl, rfl⟩ | ⟨rfl, rfl⟩ | ⟨rfl, rfl⟩ | ⟨rfl, rfl⟩ <;>
      decide

theorem strBody_sound (k : Nat) : ∀ {t s r : Str}, strBody k t = some (s, r) →
    ∃ e, t = e ++ '"' :: r ∧ JChars s e := by
  induction k with
  | zero => intro t s r h; cases h
  | succ k ih =>
    intro t s r h
    cases t with
    | nil => cases h
    | cons c t =>
      rw [strBody.eq_def] at h
      simp only at h
      split at h
      · rename_i hc
        cases h
        subst hc
        exact ⟨[], rfl, .nil⟩
      · rename_i hq
        split at h
        · rename_i hb
          subst hb
          cases t with
          | nil => cases h
          | cons e u =>
            simp only at h
            split at h
            · rename_i he
              subst he
              cases hu : uniEsc u with
              | none => rw [hu] at h; cases h
              | some y =>
                obtain ⟨x, u'⟩ := y
                rw [hu] at h
                simp only [Option.map_eq_some_iff] at h
                obtain ⟨⟨s', r'⟩, h1, h2⟩ := h
                cases h2
                obtain ⟨p, rfl, hp⟩ := uniEsc_sound hu
                obtain ⟨e', rfl, he'⟩ := ih h1
                exact ⟨_, by simp, .cons hp he'⟩
            · cases hu : escChar e with
              | none => rw [hu] at h; cases h
              | some x =>
                rw [hu] at h
                simp only [Option.map_eq_some_iff] at h
                obtain ⟨⟨s', r'⟩, h1, h2⟩ := h
                cases h2
                obtain ⟨e', rfl, he'⟩ := ih h1
                exact ⟨['\\', e] ++ e', by simp, .cons (.short ((escChar_iff _ _).1 hu)) he'⟩
        · rename_i hb
          split at h
          · cases h
          · rename_i hn
            simp only [Option.map_eq_some_iff] at h
            obtain ⟨⟨s', r'⟩, h1, h2⟩ := h
            cases h2
            obtain ⟨e', rfl, he'⟩ := ih h1
            exact ⟨[c] ++ e', by simp, .cons (.plain hq hb (by omega)) he'⟩

theorem uniEsc_complete {c : Char} {p : Str} (h : JChar c ('\\' :: 'u' :: p)) (r : Str) : uniEsc (p ++ r) = some (c, r) := by
  generalize ht : '\\' :: 'u' :: p = t at h
  cases h with
  | plain => simp at ht
  | short h =>
    injection ht with _ ht
    injection ht with h1 h2
    subst h1
    simp at h
  | code hx =>
    injection ht with _ ht
    injection ht with _ ht
    subst ht
    have := char_range c
    rw [uniEsc, hex4_complete hx]
    simp only
    rw [if_neg (by omega), if_neg (by omega), Char.ofNat_toNat]
  | pair hx hy h1 h2 h3 h4 h5 =>
    injection ht with _ ht
    injection ht with _ ht
    subst ht
    rw [uniEsc, List.append_assoc, hex4_complete hx]
    simp only
    rw [if_neg (by omega), if_pos ⟨h1, h2⟩]
    simp only [List.cons_append]
    rw [hex4_complete hy]
    simp only
    rw [if_pos ⟨h3, h4⟩, ← h5, Char.ofNat_toNat]

theorem strBody_complete {s e : Str} (h : JChars s e) : ∀ (k : Nat) (r : Str), e.length < k →
    strBody k (e ++ '"' :: r) = some (s, r) := by
  induction h with
  | nil =>
    intro k r hk
    cases k with
    | zero => simp at hk
    | succ k => rfl
  | @cons c x s e hx _ ih =>
    intro k r hk
    cases k with
    | zero => simp at hk
    | succ k =>
      rw [List.length_append] at hk
      have hx0 : 0 < x.length := by cases hx <;> simp
      have ih := ih k r (by omega)
      cases hx with
      | plain h1 h2 h3 =>
        rw [List.append_assoc, List.singleton_append, strBody.eq_def]
        simp only
        rw [if_neg h1, if_neg h2, if_neg (by omega), ih]
        rfl
      | short h1 =>
        rename_i e'
        have hu : e' ≠ 'u' := by rintro rfl; simp at h1
        simp only [List.cons_append, List.nil_append]
        rw [strBody.eq_def]
        simp only
        rw [if_neg (by decide), if_pos trivial, if_neg hu, (escChar_iff _ _).2 h1]
        simp only
        rw [ih]
        rfl
      | code h1 =>
        simp only [List.cons_append]
        rw [strBody.eq_def]
        simp only
        rw [if_neg (by decide), if_pos trivial, if_pos trivial, List.append_assoc, uniEsc_complete (.code h1)]
        simp only
        rw [ih]
        rfl
      | pair h1 h2 h3 h4 h5 h6 h7 =>
        simp only [List.cons_append]
        rw [strBody.eq_def]
        simp only
        rw [if_neg (by decide), if_pos trivial, if_pos trivial]
        have := uniEsc_complete (.pair h1 h2 h3 h4 h5 h6 h7) (e ++ '"' :: r)
        rw [List.append_assoc, this]
        simp only
        rw [ih]
        rfl

/-! ## Values -/

theorem ident_sound {w s r : Str} {j j' : Json} (h : ident w j s = some (j', r)) : s = w ++ r ∧ j' = j := by
  unfold ident at h
  split at h
  · rename_i hp
    obtain ⟨t, rfl⟩ := List.isPrefixOf_iff_prefix.1 hp
    rw [List.drop_left] at h
    cases h
    exact ⟨rfl, rfl⟩
  · cases h

theorem ident_complete (w r : Str) (j : Json) : ident w j (w ++ r) = some (j, r) := by
  unfold ident
  rw [if_pos (List.isPrefixOf_iff_prefix.2 (List.prefix_append w r)), List.drop_left]

theorem strBody_string {k : Nat} {t s r : Str} (h : strBody k t = some (s, r)) :
    ∃ p, '"' :: t = p ++ r ∧ JString s p := by
  obtain ⟨e, rfl, he⟩ := strBody_sound k h
  exact ⟨_, by simp, e, he, rfl⟩

theorem value_sound (k : Nat) :
    (∀ d s j r, value k d s = some (j, r) → ∃ p, s = p ++ r ∧ JVal d j p) ∧
    (∀ d s l r, elements k d s = some (l, r) → ∃ e, s = e ++ ']' :: r ∧ JElems d l e) ∧
    (∀ d s l r, members k d s = some (l, r) → ∃ e, s = e ++ '}' :: r ∧ JMems d l e) := by
  induction k with
  | zero => exact ⟨fun _ _ _ _ h => (by cases h), fun _ _ _ _ h => (by cases h), fun _ _ _ _ h => (by cases h)⟩
  | succ k ih =>
    obtain ⟨ihv, ihe, ihm⟩ := ih
    refine ⟨?_, ?_, ?_⟩
    · intro d s j r h
      cases s with
      | nil => cases h
      | cons c t =>
        rw [value.eq_def] at h
        simp only at h
        split at h
        · rename_i hc
          obtain ⟨rfl, rfl⟩ := ident_sound h
          exact ⟨['n', 'u', 'l', 'l'], by rw [hc]; rfl, .null⟩
        split at h
        · rename_i hc
          obtain ⟨rfl, rfl⟩ := ident_sound h
          exact ⟨['t', 'r', 'u', 'e'], by rw [hc]; rfl, .tru⟩
        split at h
        · rename_i hc
          obtain ⟨rfl, rfl⟩ := ident_sound h
          exact ⟨['f', 'a', 'l', 's', 'e'], by rw [hc]; rfl, .fls⟩
        split at h
        · rename_i hc
          subst hc
          obtain ⟨⟨s', r'⟩, h1, h2⟩ := Option.map_eq_some_iff.1 h
          cases h2
          obtain ⟨p, hp, hs⟩ := strBody_string h1
          exact ⟨p, hp, .str hs⟩
        split at h
        · rename_i hc
          subst hc
          cases d with
          | zero => cases h
          | succ d =>
            simp only at h
            obtain ⟨w, hw, ht⟩ := skipWs_split t
            cases hs : skipWs t with
            | nil => rw [hs] at h; cases h
            | cons x u =>
              rw [hs] at h ht
              simp only at h
              split at h
              · rename_i hx
                cases h
                subst hx
                exact ⟨'[' :: (w ++ [']']), by rw [ht]; simp, .arr0 hw⟩
              · obtain ⟨⟨l, r'⟩, h1, h2⟩ := Option.map_eq_some_iff.1 h
                cases h2
                obtain ⟨e, he, hl⟩ := ihe _ _ _ _ h1
                exact ⟨'[' :: (w ++ (e ++ [']'])), by rw [ht, he]; simp, .arr hw hl⟩
        split at h
        · rename_i hc
          subst hc
          cases d with
          | zero => cases h
          | succ d =>
            simp only at h
            obtain ⟨w, hw, ht⟩ := skipWs_split t
            cases hs : skipWs t with
            | nil => rw [hs] at h; cases h
            | cons x u =>
              rw [hs] at h ht
              simp only at h
              split at h
              · rename_i hx
                cases h
                subst hx
                exact ⟨'{' :: (w ++ ['}']), by rw [ht]; simp, .obj0 hw⟩
              · obtain ⟨⟨l, r'⟩, h1, h2⟩ := Option.map_eq_some_iff.1 h
                cases h2
                obtain ⟨e, he, hl⟩ := ihm _ _ _ _ h1
                exact ⟨'{' :: (w ++ (e ++ ['}'])), by rw [ht, he]; simp, .obj hw hl⟩
        split at h
        · rename_i hc
          subst hc
          obtain ⟨p, rfl, hp⟩ := number_sound h
          exact ⟨'-' :: p, rfl, .num hp⟩
        · obtain ⟨p, hp, hn⟩ := number_sound h
          exact ⟨p, hp, .num hn⟩
    · intro d s l r h
      rw [elements.eq_def] at h
      simp only at h
      cases hv : value k d s with
      | none => rw [hv] at h; cases h
      | some y =>
        obtain ⟨j, r'⟩ := y
        rw [hv] at h
        obtain ⟨p, rfl, hp⟩ := ihv _ _ _ _ hv
        obtain ⟨w, hw, ht⟩ := skipWs_split r'
        simp only at h
        cases hs : skipWs r' with
        | nil => rw [hs] at h; cases h
        | cons x u =>
          rw [hs] at h ht
          simp only at h
          split at h
          · rename_i hx
            cases h
            subst hx
            exact ⟨p ++ w, by rw [ht]; simp, .one hp hw⟩
          split at h
          · rename_i hx
            subst hx
            obtain ⟨⟨l, r'⟩, h1, h2⟩ := Option.map_eq_some_iff.1 h
            cases h2
            obtain ⟨w', hw', ht'⟩ := skipWs_split u
            obtain ⟨e, he, hl⟩ := ihe _ _ _ _ h1
            exact ⟨p ++ (w ++ ',' :: (w' ++ e)), by rw [ht, ht', he]; simp, .cons hp hw hw' hl⟩
          · cases h
    · intro d s l r h
      cases s with
      | nil => cases h
      | cons c t =>
        rw [members.eq_def] at h
        simp only at h
        split at h
        · rename_i hc
          subst hc
          cases hb : strBody (t.length + 1) t with
          | none => rw [hb] at h; cases h
          | some y =>
            obtain ⟨key, r1⟩ := y
            rw [hb] at h
            obtain ⟨q, hq, hkey⟩ := strBody_string hb
            rw [hq]
            obtain ⟨w1, hw1, ht1⟩ := skipWs_split r1
            simp only at h
            cases hs1 : skipWs r1 with
            | nil => rw [hs1] at h; cases h
            | cons x1 u1 =>
              rw [hs1] at h ht1
              simp only at h
              split at h
              · rename_i hx1
                subst hx1
                obtain ⟨w2, hw2, ht2⟩ := skipWs_split u1
                cases hv : value k d (skipWs u1) with
                | none => rw [hv] at h; cases h
                | some y =>
                  obtain ⟨j, r'⟩ := y
                  rw [hv] at h
                  obtain ⟨p, hp0, hp⟩ := ihv _ _ _ _ hv
                  obtain ⟨w, hw, ht⟩ := skipWs_split r'
                  simp only at h
                  cases hs : skipWs r' with
                  | nil => rw [hs] at h; cases h
                  | cons x u =>
                    rw [hs] at h ht
                    simp only at h
                    split at h
                    · rename_i hx
                      cases h
                      subst hx
                      exact ⟨q ++ (w1 ++ ':' :: (w2 ++ (p ++ w))), by rw [ht1, ht2, hp0, ht]; simp,
                        .one hkey hw1 hw2 hp hw⟩
                    split at h
                    · rename_i hx
                      subst hx
                      obtain ⟨⟨l, r'⟩, h1, h2⟩ := Option.map_eq_some_iff.1 h
                      cases h2
                      obtain ⟨w', hw', ht'⟩ := skipWs_split u
                      obtain ⟨e, he, hl⟩ := ihm _ _ _ _ h1
                      exact ⟨q ++ (w1 ++ ':' :: (w2 ++ (p ++ (w ++ ',' :: (w' ++ e))))),
                        by rw [ht1, ht2, hp0, ht, ht', he]; simp, .cons hkey hw1 hw2 hp hw hw' hl⟩
                    · cases h
              · cases h
        · cases h

/-- The first character of a number. -/
theorem JNum_first {j : Json} {p : Str} (h : JNum j p) :
    (∃ ds f e, p = '-' :: (ds ++ (f ++ e)) ∧ JInt ds ∧ JFrac f ∧ JExp e ∧
      j = if f ++ e ≠ [] then .float else intVal true (decSum ds)) ∨
    (∃ ds f e, p = ds ++ (f ++ e) ∧ JInt ds ∧ JFrac f ∧ JExp e ∧
      j = if f ++ e ≠ [] then .float else intVal false (decSum ds)) := by
  cases h with
  | nat h h1 =>
    refine .inr ⟨_, [], [], by simp, h, .inl rfl, .inl rfl, ?_⟩
    rw [if_neg (by simp), intVal, if_neg (by decide), if_pos h1]
  | neg h h1 h2 =>
    refine .inl ⟨_, [], [], by simp, h, .inl rfl, .inl rfl, ?_⟩
    rw [if_neg (by simp), intVal, if_pos rfl, if_pos ⟨h1, h2⟩]
  | big h h1 =>
    refine .inr ⟨_, [], [], by simp, h, .inl rfl, .inl rfl, ?_⟩
    rw [if_neg (by simp), intVal, if_neg (by decide), if_neg (by omega)]
  | negBig h h1 =>
    refine .inl ⟨_, [], [], by simp, h, .inl rfl, .inl rfl, ?_⟩
    rw [if_neg (by simp), intVal, if_pos rfl, if_neg (by omega)]
  | @real sg ds f e hs h hf he hfe =>
    rcases hs with rfl | rfl
    · exact .inr ⟨ds, f, e, rfl, h, hf, he, by rw [if_pos hfe]⟩
    · exact .inl ⟨ds, f, e, rfl, h, hf, he, by rw [if_pos hfe]⟩

theorem JInt_first {ds : Str} (h : JInt ds) : ∃ c t, ds = c :: t ∧ 48 ≤ c.toNat ∧ c.toNat ≤ 57 := by
  obtain ⟨⟨h1, h2⟩, _⟩ := h
  cases ds with
  | nil => exact absurd rfl h1
  | cons c t => exact ⟨c, t, rfl, h2 c List.mem_cons_self⟩

theorem digit_not {c x : Char} (h : 48 ≤ c.toNat ∧ c.toNat ≤ 57) (hx : x.toNat < 48 ∨ 57 < x.toNat) : c ≠ x := by
  rintro rfl
  omega

theorem JVal_first {d : Nat} {j : Json} {p : Str} (h : JVal d j p) :
    ∃ c t, p = c :: t ∧ isWs c = false ∧ c ≠ ']' ∧ c ≠ '}' := by
  cases h with
  | null => exact ⟨_, _, rfl, by decide⟩
  | tru => exact ⟨_, _, rfl, by decide⟩
  | fls => exact ⟨_, _, rfl, by decide⟩
  | num h =>
    rcases JNum_first h with ⟨ds, f, e, rfl, _⟩ | ⟨ds, f, e, rfl, hi, _⟩
    · exact ⟨_, _, rfl, by decide⟩
    · obtain ⟨c, t, rfl, hc⟩ := JInt_first hi
      refine ⟨c, _, rfl, ?_, digit_not hc (by decide), digit_not hc (by decide)⟩
      rw [Bool.eq_false_iff]
      intro hw
      rcases (isWs_iff c).1 hw with h | h | h | h <;> exact digit_not hc (by decide) h
  | str h => obtain ⟨e, _, rfl⟩ := h; exact ⟨_, _, rfl, by decide⟩
  | arr0 => exact ⟨_, _, rfl, by decide⟩
  | arr => exact ⟨_, _, rfl, by decide⟩
  | obj0 => exact ⟨_, _, rfl, by decide⟩
  | obj => exact ⟨_, _, rfl, by decide⟩

theorem JElems_first {d : Nat} {l : List Json} {p : Str} (h : JElems d l p) :
    ∃ c t, p = c :: t ∧ isWs c = false ∧ c ≠ ']' := by
  cases h with
  | one hv _ => obtain ⟨c, t, rfl, h1, h2, _⟩ := JVal_first hv; exact ⟨c, _, rfl, h1, h2⟩
  | cons hv _ _ _ => obtain ⟨c, t, rfl, h1, h2, _⟩ := JVal_first hv; exact ⟨c, _, rfl, h1, h2⟩

theorem JMems_first {d : Nat} {l : List (Str × Json)} {p : Str} (h : JMems d l p) :
    ∃ c t, p = c :: t ∧ isWs c = false ∧ c ≠ '}' := by
  cases h with
  | one hk => obtain ⟨e, _, rfl⟩ := hk; exact ⟨_, _, rfl, by decide⟩
  | cons hk => obtain ⟨e, _, rfl⟩ := hk; exact ⟨_, _, rfl, by decide⟩

theorem Stop_ws {w : Str} (hw : JWs w) (x : Char) (hx : x = ',' ∨ x = ']' ∨ x = '}') (r : Str) : Stop (w ++ x :: r) := by
  intro c t e
  cases w with
  | nil => injection e with e _; subst e; exact .inr hx
  | cons y w => injection e with e _; subst e; exact .inl ((isWs_iff _).2 (hw _ List.mem_cons_self))

theorem number_value {k d : Nat} {c : Char} {t : Str} (hc : 48 ≤ c.toNat ∧ c.toNat ≤ 57) :
    value (k + 1) d (c :: t) = number false (c :: t) := by
  rw [value.eq_def]
  simp only
  rw [if_neg (digit_not hc (by decide)), if_neg (digit_not hc (by decide)), if_neg (digit_not hc (by decide)),
    if_neg (digit_not hc (by decide)), if_neg (digit_not hc (by decide)), if_neg (digit_not hc (by decide)),
    if_neg (digit_not hc (by decide))]

theorem value_complete (k : Nat) :
    (∀ d j p r, JVal d j p → p.length ≤ k → Stop r → value k d (p ++ r) = some (j, r)) ∧
    (∀ d l e r, JElems d l e → e.length < k → elements k d (e ++ ']' :: r) = some (l, r)) ∧
    (∀ d l e r, JMems d l e → e.length < k → members k d (e ++ '}' :: r) = some (l, r)) := by
  induction k with
  | zero =>
    refine ⟨?_, fun _ _ _ _ _ h => (by cases h), fun _ _ _ _ _ h => (by cases h)⟩
    intro d j p r h hk
    obtain ⟨c, t, rfl, _⟩ := JVal_first h
    simp at hk
  | succ k ih =>
    obtain ⟨ihv, ihe, ihm⟩ := ih
    refine ⟨?_, ?_, ?_⟩
    · intro d j p r h hk hr
      cases h with
      | null => exact ident_complete ['u', 'l', 'l'] r .null
      | tru => exact ident_complete ['r', 'u', 'e'] r (.bool true)
      | fls => exact ident_complete ['a', 'l', 's', 'e'] r (.bool false)
      | num h =>
        rcases JNum_first h with ⟨ds, f, e, rfl, hi, hf, he, rfl⟩ | ⟨ds, f, e, rfl, hi, hf, he, rfl⟩
        · have := number_complete (neg := true) hi hf he hr
          rw [List.cons_append, List.append_assoc, List.append_assoc, ← this]
          rfl
        · obtain ⟨c, t, rfl, hc⟩ := JInt_first hi
          have := number_complete (neg := false) hi hf he hr
          rw [List.append_assoc, List.append_assoc, ← this, List.cons_append, number_value hc]
      | str h =>
        obtain ⟨e, he, rfl⟩ := h
        have := strBody_complete he ((e ++ '"' :: r).length + 1) r (by simp; omega)
        rw [List.cons_append, List.append_assoc, List.singleton_append, value.eq_def]
        simp only
        rw [if_neg (by decide), if_neg (by decide), if_neg (by decide), if_pos trivial, this]
        rfl
      | arr0 hw =>
        rw [List.cons_append, List.append_assoc, List.singleton_append, value.eq_def]
        simp only
        rw [if_neg (by decide), if_neg (by decide), if_neg (by decide), if_neg (by decide), if_pos trivial,
          skipWs_app hw, skipWs_stop (by decide)]
        rfl
      | arr hw hl =>
        rename_i d w l e
        obtain ⟨c, t, hce, h1, h2⟩ := JElems_first hl
        have hk' : e.length < k := by simp at hk; omega
        have h3 := ihe _ _ _ r hl hk'
        rw [List.cons_append, List.append_assoc, List.append_assoc, List.singleton_append, value.eq_def]
        simp only
        rw [if_neg (by decide), if_neg (by decide), if_neg (by decide), if_neg (by decide), if_pos trivial,
          skipWs_app hw]
        rw [hce, List.cons_append] at h3 ⊢
        rw [skipWs_stop h1]
        simp only
        rw [if_neg h2, h3]
        rfl
      | obj0 hw =>
        rw [List.cons_append, List.append_assoc, List.singleton_append, value.eq_def]
        simp only
        rw [if_neg (by decide), if_neg (by decide), if_neg (by decide), if_neg (by decide), if_neg (by decide),
          if_pos trivial, skipWs_app hw, skipWs_stop (by decide)]
        rfl
      | obj hw hl =>
        rename_i d w l e
        obtain ⟨c, t, hce, h1, h2⟩ := JMems_first hl
        have hk' : e.length < k := by simp at hk; omega
        have h3 := ihm _ _ _ r hl hk'
        rw [List.cons_append, List.append_assoc, List.append_assoc, List.singleton_append, value.eq_def]
        simp only
        rw [if_neg (by decide), if_neg (by decide), if_neg (by decide), if_neg (by decide), if_neg (by decide),
          if_pos trivial, skipWs_app hw]
        rw [hce, List.cons_append] at h3 ⊢
        rw [skipWs_stop h1]
        simp only
        rw [if_neg h2, h3]
        rfl
    · intro d l e r h hk
      cases h with
      | one hv hw =>
        rename_i j s w
        rw [List.length_append] at hk
        rw [List.append_assoc, elements.eq_def]
        simp only
        rw [ihv _ _ _ _ hv (by omega) (Stop_ws hw _ (.inr (.inl rfl)) r)]
        simp only
        rw [skipWs_app hw, skipWs_stop (by decide)]
        simp
      | cons hv hw hw' hl =>
        rename_i j s w w' l e
        simp only [List.length_append, List.length_cons] at hk
        obtain ⟨c, t, hce, h1, _⟩ := JElems_first hl
        have h3 := ihe _ _ _ r hl (by omega)
        rw [List.append_assoc, List.append_assoc, List.cons_append, List.append_assoc, elements.eq_def]
        simp only
        rw [ihv _ _ _ _ hv (by omega) (Stop_ws hw _ (.inl rfl) _)]
        simp only
        rw [skipWs_app hw, skipWs_stop (by decide)]
        simp only
        rw [if_neg (by decide), if_pos trivial, skipWs_app hw']
        rw [hce, List.cons_append] at h3 ⊢
        rw [skipWs_stop h1, h3]
        rfl
    · intro d l e r h hk
      cases h with
      | one hkey hw1 hw2 hv hw =>
        rename_i key q w1 w2 j s w
        obtain ⟨ek, hek, rfl⟩ := hkey
        simp only [List.length_append, List.length_cons] at hk
        obtain ⟨c, t, hcs, h1, _⟩ := JVal_first hv
        have h3 := ihv _ _ _ _ hv (by omega) (Stop_ws hw _ (.inr (.inr rfl)) r)
        simp only [List.cons_append, List.append_assoc, List.nil_append]
        rw [members.eq_def]
        simp only
        rw [if_pos trivial, strBody_complete hek _ _ (by simp; omega)]
        simp only
        rw [skipWs_app hw1, skipWs_stop (by decide)]
        simp only
        rw [if_pos trivial, skipWs_app hw2]
        rw [hcs, List.cons_append] at h3 ⊢
        rw [skipWs_stop h1, h3]
        simp only
        rw [skipWs_app hw, skipWs_stop (by decide)]
        simp
      | cons hkey hw1 hw2 hv hw hw' hl =>
        rename_i key q w1 w2 j s w w' l e
        obtain ⟨ek, hek, rfl⟩ := hkey
        simp only [List.length_append, List.length_cons] at hk
        obtain ⟨c, t, hcs, h1, _⟩ := JVal_first hv
        obtain ⟨c', t', hce, h1', _⟩ := JMems_first hl
        have h4 := ihm _ _ _ r hl (by omega)
        have h3 := ihv _ _ _ _ hv (by omega) (Stop_ws hw _ (.inl rfl) (w' ++ (e ++ '}' :: r)))
        simp only [List.cons_append, List.append_assoc, List.nil_append]
        rw [members.eq_def]
        simp only
        rw [if_pos trivial, strBody_complete hek _ _ (by simp; omega)]
        simp only
        rw [skipWs_app hw1, skipWs_stop (by decide)]
        simp only
        rw [if_pos trivial, skipWs_app hw2]
        rw [hcs, List.cons_append] at h3 ⊢
        rw [skipWs_stop h1, h3]
        simp only
        rw [skipWs_app hw, skipWs_stop (by decide)]
        simp only
        rw [if_neg (by decide), if_pos trivial, skipWs_app hw']
        rw [hce, List.cons_append] at h4 ⊢
        rw [skipWs_stop h1', h4]
        rfl

/-! ## Writing -/

theorem decSum_snoc (s : Str) (c : Char) : decSum (s ++ [c]) = decSum s * 10 + (c.toNat - 48) := by
  induction s with
  | nil => simp [decSum]
  | cons x s ih =>
    rw [List.cons_append, decSum, ih, decSum, List.length_append, List.length_singleton, Nat.pow_succ]
    ring

theorem digitChar_toNat (d : Nat) (h : d < 10) : (digitChar d).toNat = 48 + d := by
  rw [digitChar, toNat_ofNat (by omega)]

theorem decimal_sum (n : Nat) : decSum (decimal n) = n := by
  induction n using Nat.strong_induction_on with
  | _ n ih =>
    rw [decimal]
    split
    · rename_i h
      simp only [decSum, List.length_nil, digitChar_toNat n h]
      omega
    · rw [decSum_snoc, ih (n / 10) (by omega), digitChar_toNat _ (by omega)]
      omega

theorem decimal_zero (n : Nat) (h : (decimal n).head? = some '0') : n = 0 := by
  induction n using Nat.strong_induction_on with
  | _ n ih =>
    rw [decimal] at h
    split at h
    · rename_i hn
      rw [List.head?_cons] at h
      injection h with h
      have := congrArg Char.toNat h
      rw [digitChar_toNat n hn] at this
      have h0 : ('0' : Char).toNat = 48 := rfl
      omega
    · have hne := (decimal_chars (n / 10)).1
      rw [List.head?_append_of_ne_nil _ hne] at h
      have := ih (n / 10) (by omega) h
      omega

theorem decimal_int (n : Nat) : JInt (decimal n) := by
  obtain ⟨h1, h2⟩ := decimal_chars n
  refine ⟨⟨h1, ?_⟩, ?_⟩
  · intro c hc
    obtain ⟨d, hd, rfl⟩ := h2 c hc
    rw [digitChar_toNat d hd]
    omega
  · intro h
    rw [decimal_zero n h, decimal, if_pos (by decide)]
    rfl

theorem intText_num {n : Int} (h1 : -2 ^ 63 ≤ n) (h2 : n < 2 ^ 64) : JNum (.num n) (intText n) := by
  unfold intText
  split
  · rename_i h
    have := JNum.neg (decimal_int n.natAbs) (by rw [decimal_sum]; omega) (by rw [decimal_sum]; omega)
    rw [decimal_sum] at this
    rwa [show -(n.natAbs : Int) = n by omega] at this
  · rename_i h
    have := JNum.nat (decimal_int n.natAbs) (by rw [decimal_sum]; omega)
    rw [decimal_sum] at this
    rwa [show (n.natAbs : Int) = n by omega] at this

theorem hexLow_digit (n : Nat) (h : n < 16) : JHexD (hexLow n) n := by
  unfold hexLow JHexD
  split
  · rw [toNat_ofNat (by omega)]; omega
  · rw [toNat_ofNat (by omega)]; omega

theorem escOf_char (c : Char) : JChar c (escOf c) := by
  unfold escOf
  split
  · rename_i h; subst h; exact .short (by simp)
  split
  · rename_i h; subst h; exact .short (by simp)
  split
  · rename_i h; subst h; exact .short (by simp)
  split
  · rename_i h; subst h; exact .short (by simp)
  split
  · rename_i h; subst h; exact .short (by simp)
  split
  · rename_i h; subst h; exact .short (by simp)
  split
  · rename_i h; subst h; exact .short (by simp)
  split
  · rename_i h
    refine .code ⟨'0', '0', _, _, 0, 0, c.toNat / 16, c.toNat % 16, rfl, ?_, ?_, hexLow_digit _ (by omega),
      hexLow_digit _ (by omega), by omega⟩ <;> exact .inl (by decide)
  · rename_i h1 h2 _ _ _ _ _ h3
    exact .plain h1 h2 (by omega)

theorem quote_string (s : Str) : JString s (quote s) := by
  refine ⟨s.flatMap escOf, ?_, rfl⟩
  induction s with
  | nil => exact .nil
  | cons c s ih => rw [List.flatMap_cons]; exact .cons (escOf_char c) ih

theorem newLine_ws (ind : Nat) : JWs (newLine ind) := by
  intro c hc
  rcases List.mem_cons.1 hc with rfl | hc
  · exact .inr (.inl rfl)
  · exact .inl (List.eq_of_mem_replicate hc)

theorem elemsText_ok {d : Nat} (ind : Nat) (w : Str) (hw : JWs w) : ∀ (l : List Json) (j : Json),
    JVal d j (jsonText j ind) → (∀ x ∈ l, JVal d x (jsonText x ind)) →
    JElems d (j :: l) (jsonText j ind ++ (elemsText l false ind ++ w)) := by
  intro l
  induction l with
  | nil => intro j hj _; exact .one hj hw
  | cons x l ih =>
    intro j hj hl
    have := JElems.cons hj (w := []) (by simp [JWs]) (newLine_ws ind)
      (ih x (hl x List.mem_cons_self) fun y hy => hl y (List.mem_cons_of_mem _ hy))
    simpa [elemsText] using this

theorem membersText_ok {d : Nat} (ind : Nat) (w : Str) (hw : JWs w) : ∀ (l : List (Str × Json)) (e : Str × Json),
    JVal d e.2 (jsonText e.2 ind) → (∀ x ∈ l, JVal d x.2 (jsonText x.2 ind)) →
    JMems d (e :: l) (memberText e ind ++ (membersText l false ind ++ w)) := by
  have hnil : JWs [] := by simp [JWs]
  have hsp : JWs [' '] := by simp [JWs]
  intro l
  induction l with
  | nil =>
    rintro ⟨k, j⟩ hj _
    simpa [memberText, membersText] using JMems.one (quote_string k) hnil hsp hj hw
  | cons x l ih =>
    rintro ⟨k, j⟩ hj hl
    have := JMems.cons (quote_string k) hnil hsp hj hnil (newLine_ws ind)
      (ih x (hl x List.mem_cons_self) fun y hy => hl y (List.mem_cons_of_mem _ hy))
    simpa [memberText, membersText] using this

theorem jsonText_ok {d : Nat} {j : Json} (h : Plain d j) : ∀ ind, JVal d j (jsonText j ind) := by
  have hnil : JWs [] := by simp [JWs]
  induction h with
  | null => intro ind; exact .null
  | @bool d b => intro ind; cases b; exacts [.fls, .tru]
  | num h1 h2 => intro ind; rw [jsonText]; exact .num (intText_num h1 h2)
  | str => intro ind; rw [jsonText]; exact .str (quote_string _)
  | @arr d l _ ih =>
    intro ind
    cases l with
    | nil => exact .arr0 hnil
    | cons j l =>
      have := JVal.arr (newLine_ws (ind + 1)) (elemsText_ok (ind + 1) _ (newLine_ws ind) l j
        (ih j List.mem_cons_self _) fun x hx => ih x (List.mem_cons_of_mem _ hx) _)
      simpa [jsonText, elemsText] using this
  | @obj d l _ ih =>
    intro ind
    cases l with
    | nil => exact .obj0 hnil
    | cons j l =>
      have := JVal.obj (newLine_ws (ind + 1)) (membersText_ok (ind + 1) _ (newLine_ws ind) l j
        (ih j List.mem_cons_self _) fun x hx => ih x (List.mem_cons_of_mem _ hx) _)
      simpa [jsonText, membersText] using this

/-! ## C152 -/

/-- **C152**, reading: a text is read exactly if it is JSON of at most 127 nested arrays and objects, and the value is the
one that the grammar gives it. -/
theorem C152_reads (s : Str) (j : Json) : serdeJson.parse s = some j ↔ JText 127 j s := by
  show jsonParse s = some j ↔ _
  constructor
  · intro h
    unfold jsonParse at h
    split at h
    · cases h
    · rename_i j' r hv
      split at h
      · rename_i hr
        cases h
        obtain ⟨w, hw, hs⟩ := skipWs_split s
        obtain ⟨w', hw', hr'⟩ := skipWs_split r
        rw [hr, List.append_nil] at hr'
        subst hr'
        obtain ⟨p, hp, hj⟩ := (value_sound _).1 _ _ _ _ hv
        exact ⟨w, p, r, by rw [← hp]; exact hs, hw, hj, hw'⟩
      · cases h
  · rintro ⟨w, p, w', rfl, hw, hp, hw'⟩
    obtain ⟨c, t, hc, h1, _⟩ := JVal_first hp
    have hstop : Stop w' := by
      intro x u e
      exact .inl ((isWs_iff x).2 (hw' x (by rw [e]; exact List.mem_cons_self)))
    have := (value_complete (w ++ (p ++ w')).length).1 _ _ _ w' hp (by simp; omega) hstop
    have hsk : skipWs (w ++ (p ++ w')) = p ++ w' := by
      rw [skipWs_app hw, hc, List.cons_append, skipWs_stop h1]
    have hend : skipWs w' = [] := by
      have := skipWs_app hw' []
      rw [List.append_nil] at this
      rw [this]; rfl
    rw [jsonParse, hsk, this]
    simp only
    rw [if_pos hend]

/-- **C152**: no text stands for two values. -/
theorem C152_unambiguous (s : Str) (j j' : Json) (h : JText 127 j s) (h' : JText 127 j' s) : j = j' := by
  have h1 := (C152_reads s j).2 h
  rw [(C152_reads s j').2 h'] at h1
  injection h1 with h1
  exact h1.symm

/-- **C152**, writing: what is written is JSON for the value, and is read back as it. -/
theorem C152_written (j : Json) (h : Plain 127 j) :
    JText 127 j (serdeJson.print j) ∧ serdeJson.parse (serdeJson.print j) = some j := by
  have hnil : JWs [] := by simp [JWs]
  have : JText 127 j (serdeJson.print j) := ⟨[], _, [], by simp; rfl, hnil, jsonText_ok h 0, hnil⟩
  exact ⟨this, (C152_reads _ _).2 this⟩

example : Plain 127 (.obj [(['a'], .arr [.num (-5), .str ['"', '\n']]), ([], .null)]) := by
  refine .obj fun e he => ?_
  simp only [List.mem_cons, List.not_mem_nil, or_false] at he
  rcases he with rfl | rfl
  · refine .arr fun e he => ?_
    simp only [List.mem_cons, List.not_mem_nil, or_false] at he
    rcases he with rfl | rfl
    · exact .num (by decide) (by decide)
    · exact .str
  · exact .null

theorem value_deep (d : Nat) (t : Str) : ∀ k, value k d (List.replicate (d + 1) '[' ++ t) = none := by
  induction d with
  | zero =>
    intro k
    cases k <;> rfl
  | succ d ih =>
    intro k
    cases k with
    | zero => rfl
    | succ k =>
      rw [List.replicate_succ, List.cons_append, value.eq_def]
      simp only
      rw [if_neg (by decide), if_neg (by decide), if_neg (by decide), if_neg (by decide), if_pos trivial]
      have hs : skipWs (List.replicate (d + 1) '[' ++ t) = '[' :: (List.replicate d '[' ++ t) := by
        rw [List.replicate_succ, List.cons_append, skipWs_stop (by decide)]
      rw [hs]
      simp only
      rw [if_neg (by decide)]
      cases k with
      | zero => rfl
      | succ k =>
        have := ih k
        rw [List.replicate_succ, List.cons_append] at this
        rw [elements, this]
        rfl

/-- **C152**, the limit: a text that opens 128 arrays is refused, whatever follows; 127 are accepted. -/
theorem C152_nesting (t : Str) : serdeJson.parse (List.replicate 128 '[' ++ t) = none ∧
    ∃ j, serdeJson.parse (List.replicate 127 '[' ++ List.replicate 127 ']') = some j := by
  constructor
  · have hparse : serdeJson.parse = jsonParse := rfl
    have key : ∀ n m k, m = n + 1 → value k n (skipWs (List.replicate m '[' ++ t)) = none := by
      rintro n m k rfl
      have hs : skipWs (List.replicate (n + 1) '[' ++ t) = List.replicate (n + 1) '[' ++ t := by
        rw [List.replicate_succ, List.cons_append, skipWs_stop (by decide)]
      rw [hs, value_deep]
    generalize hm : 128 = m
    rw [hparse, jsonParse, key 127 m _ hm.symm]
  · have key : ∀ n, ∃ j, JVal (n + 1) j (List.replicate (n + 1) '[' ++ List.replicate (n + 1) ']') := by
      have hnil : JWs [] := by simp [JWs]
      intro n
      induction n with
      | zero => exact ⟨_, .arr0 hnil⟩
      | succ n ih =>
        obtain ⟨j, hj⟩ := ih
        refine ⟨.arr [j], ?_⟩
        have := JVal.arr hnil (JElems.one hj hnil)
        rw [List.replicate_succ (n := n + 1) (a := '['), List.replicate_succ' (n := n + 1) (a := ']')]
        simpa using this
    obtain ⟨j, hj⟩ := key 126
    have hnil : JWs [] := by simp [JWs]
    exact ⟨j, (C152_reads _ _).2 ⟨[], _, [], by simp, hnil, hj, hnil⟩⟩

/-! ## The files of the node -/

theorem nat_plain {d n : Nat} (h : n < 2 ^ 64) : Plain d (.num n) := .num (by omega) (by omega)

theorem pval_plain (d : Nat) (ty : PTy) (x : PVal) (hs : ShapeOk ty x) (hf : FitsP ty x) :
    Plain (d + 1) (pvalJson ty x) := by
  cases ty <;> cases x <;> simp only [ShapeOk] at hs
  · have hf : _ < 2 ^ 32 := hf
    exact nat_plain (by omega)
  · exact nat_plain hf
  · exact .bool
  · rename_i n
    have hf : n < 2 ^ 64 * 10 ^ 9 := hf
    rw [pvalJson]
    refine .obj fun e he => ?_
    simp only [List.mem_cons, List.not_mem_nil, or_false] at he
    rcases he with rfl | rfl
    · exact nat_plain (by omega)
    · exact nat_plain (by omega)
  · exact .str
  · rename_i l
    rw [pvalJson]
    refine .obj fun e he => ?_
    obtain ⟨x, hx, rfl⟩ := List.mem_map.1 he
    exact nat_plain (hf.2 x hx)

theorem table_plain (d : Nat) (t : Protocols) (h : TypedTable t) : Plain (d + 3) (tableJson t) := by
  refine .obj fun e he => ?_
  obtain ⟨x, hx, rfl⟩ := List.mem_map.1 he
  refine .obj fun e he => ?_
  obtain ⟨f, _, rfl⟩ := List.mem_map.1 he
  exact pval_plain d _ _ (get_shape _ _) (h.2 x hx f)

/-- **C152**: overrides saved as a text are loaded from it, with every parameter of every version; no other file changes.
Nothing is assumed about the library. -/
theorem C152_overrides (fs : Fs) (dir : Str) (params consensus : Protocols) (ht : TypedTable params) (hne : params ≠ []) :
    ∃ fs' text, saveFile serdeJson fs dir params = .ok fs' ∧
      fs' (joinPath dir ['c', 'o', 'n', 's', 'e', 'n', 's', 'u', 's', '.', 'j', 's', 'o', 'n']) = some text ∧
      JText 127 (tableJson params) text ∧
      (∀ r, merge consensus params = .ok r → preloadFile serdeJson fs' dir consensus = .ok r ∧
        loadFile serdeJson fs' dir consensus = .ok (if r = [] then consensus else r)) ∧
      ∀ p, p ≠ joinPath dir ['c', 'o', 'n', 's', 'e', 'n', 's', 'u', 's', '.', 'j', 's', 'o', 'n'] → fs' p = fs p := by
  obtain ⟨h1, h2⟩ := C152_written _ (table_plain 124 params ht)
  obtain ⟨fs', a, b, c⟩ := C143_saved_is_loaded serdeJson fs dir params consensus ht hne h2
  refine ⟨fs', _, a, ?_, h1, b, c⟩
  rw [saveFile, if_neg (by simpa using hne)] at a
  injection a with a
  subst a
  exact if_pos rfl

example : TypedTable builtin ∧ builtin ≠ [] := ⟨builtin_typed, by decide +kernel⟩

/-- **C152**: a file of overrides is refused exactly if its text is not JSON of a table. -/
theorem C152_overrides_refused (fs : Fs) (dir content : Str) (consensus : Protocols)
    (hc : fs (joinPath dir ['c', 'o', 'n', 's', 'e', 'n', 's', 'u', 's', '.', 'j', 's', 'o', 'n']) = some content) :
    loadFile serdeJson fs dir consensus = .err .other ↔ ¬ ∃ j t, JText 127 j content ∧ IsTable j t := by
  have := (C143_refuses serdeJson fs dir content consensus hc).2
  rw [this]
  simp only [C152_reads]

/-- **C152**: the text of a saved phonebook, line by line; it is JSON of the entries, and still cannot be loaded. -/
theorem C152_phonebook (fs : Fs) (path : Str) (e : Str) (es : List Str) :
    savePhonebook serdeJson fs path (e :: es) path =
      some (['{', '\n', ' ', ' ', '"', 'i', 'n', 'c', 'l', 'u', 'd', 'e', '"', ':', ' ', '['] ++
        (['\n', ' ', ' ', ' ', ' '] ++ quote e ++
        es.flatMap (fun x => [',', '\n', ' ', ' ', ' ', ' '] ++ quote x)) ++ ['\n', ' ', ' ', ']', '\n', '}']) ∧
    (∀ entries, ∃ text, savePhonebook serdeJson fs path entries path = some text ∧
      JText 127 (phonebookJson entries) text ∧
      loadPhonebook serdeJson (savePhonebook serdeJson fs path entries) path = .error .io) := by
  constructor
  · rw [(C95_saved_partial serdeJson fs path (e :: es)).1]
    have h : ∀ es : List Str, elemsText (es.map Json.str) false 2 =
        es.flatMap (fun x => [',', '\n', ' ', ' ', ' ', ' '] ++ quote x) := by
      intro es
      induction es with
      | nil => rfl
      | cons x es ih =>
        rw [List.map_cons, elemsText, ih, jsonText]
        simp [newLine, List.replicate]
    have hq : quote ['i', 'n', 'c', 'l', 'u', 'd', 'e'] = ['"', 'i', 'n', 'c', 'l', 'u', 'd', 'e', '"'] := by decide
    simp [serdeJson, jsonText, membersText, memberText, elemsText, h, hq, newLine, List.replicate]
  · intro entries
    have hp : Plain 127 (phonebookJson entries) := by
      refine .obj fun x hx => ?_
      rw [List.mem_singleton] at hx
      subst hx
      refine .arr fun y hy => ?_
      obtain ⟨z, _, rfl⟩ := List.mem_map.1 hy
      exact .str
    obtain ⟨h1, h2⟩ := C152_written _ hp
    exact ⟨_, (C95_saved_partial serdeJson fs path entries).1, h1, C95_violated serdeJson fs path entries h2⟩

/-- A case of `C152_unambiguous`: the text ` [null]` is the array of nothing only. -/
example (j : Json) (h : JText 127 j [' ', '[', 'n', 'u', 'l', 'l', ']']) : j = .arr [.null] := by
  refine C152_unambiguous _ _ _ h ?_
  exact ⟨[' '], ['[', 'n', 'u', 'l', 'l', ']'], [], rfl, by simp [JWs],
    .arr (w := []) (e := ['n', 'u', 'l', 'l']) (by simp [JWs]) (.one (w := []) .null (by simp [JWs])), by simp [JWs]⟩

/-- A case of `C152_overrides_refused`: a file with the text `[]`, which is no table. -/
example : loadFile serdeJson (fun p => if p = joinPath ['d'] ['c', 'o', 'n', 's', 'e', 'n', 's', 'u', 's', '.', 'j', 's', 'o', 'n']
      then some ['[', ']'] else none) ['d'] builtin = .err .other := by
  refine (C152_overrides_refused _ ['d'] ['[', ']'] builtin (if_pos rfl)).2 ?_
  rintro ⟨j, t, h, ht⟩
  have : j = .arr [] := C152_unambiguous _ _ _ h ⟨[], _, [], rfl, by simp [JWs], .arr0 (w := []) (by simp [JWs]), by simp [JWs]⟩
  subst this
  obtain ⟨l, h, _⟩ := ht
  cases h

end Verif.Props
