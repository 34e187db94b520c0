import Verif.Model.KeyFile
import Mathlib.Tactic.Ring
/-!
# Properties of key file names (C62)
-/

namespace Verif.Props
open Verif Verif.Config

/-! ## Decimal numbers -/

theorem toDigit_digitChar (d : Nat) (h : d < 10) : toDigit (digitChar d) = some d ∧ digitChar d ≠ '.' ∧
    digitChar d ≠ '+' := by
  have : d = 0 ∨ d = 1 ∨ d = 2 ∨ d = 3 ∨ d = 4 ∨ d = 5 ∨ d = 6 ∨ d = 7 ∨ d = 8 ∨ d = 9 := by omega
  rcases this with rfl | rfl | rfl | rfl | rfl | rfl | rfl | rfl | rfl | rfl <;> decide

theorem decimal_chars (n : Nat) : decimal n ≠ [] ∧ ∀ c ∈ decimal n, ∃ d, d < 10 ∧ c = digitChar d := by
  induction n using Nat.strong_induction_on with
  | _ n ih =>
    rw [decimal]
    split
    · rename_i h
      exact ⟨by simp, by intro c hc; rw [List.mem_singleton] at hc; exact ⟨n, h, hc⟩⟩
    · refine ⟨by simp, ?_⟩
      intro c hc
      rcases List.mem_append.1 hc with hc | hc
      · exact (ih (n / 10) (by omega)).2 c hc
      · rw [List.mem_singleton] at hc
        exact ⟨n % 10, by omega, hc⟩

theorem decimal_no_dot (n : Nat) : '.' ∉ decimal n := by
  intro h
  obtain ⟨d, hd, e⟩ := (decimal_chars n).2 _ h
  exact (toDigit_digitChar d hd).2.1 e.symm

theorem parseDigits_append (s : Str) (c : Char) (acc : Nat) :
    parseDigits acc (s ++ [c]) = (parseDigits acc s).bind fun a => parseDigits a [c] := by
  induction s generalizing acc with
  | nil => rfl
  | cons x s ih =>
    rw [List.cons_append, parseDigits, parseDigits]
    cases toDigit x with
    | none => rfl
    | some d =>
      simp only
      split
      · exact ih _
      · rfl

theorem parseDigits_decimal (n : Nat) (h : n < u64Lim) : parseDigits 0 (decimal n) = some n := by
  induction n using Nat.strong_induction_on with
  | _ n ih =>
    rw [decimal]
    split
    · rename_i h10
      rw [parseDigits, (toDigit_digitChar n h10).1]
      simp only [Nat.zero_mul, Nat.zero_add, parseDigits]
      rw [if_pos ⟨by decide, h⟩]
    · rw [parseDigits_append, ih (n / 10) (by omega) (by omega), Option.bind_some, parseDigits,
        (toDigit_digitChar (n % 10) (by omega)).1]
      simp only [parseDigits]
      rw [if_pos (by omega)]
      congr 1
      omega

theorem parseU64_decimal (n : Nat) (h : n < u64Lim) : parseU64 (decimal n) = some n := by
  have h1 := parseDigits_decimal n h
  obtain ⟨h2, h3⟩ := decimal_chars n
  cases hd : decimal n with
  | nil => exact absurd hd h2
  | cons c s =>
    obtain ⟨d, hd10, hc⟩ := h3 c (by rw [hd]; exact List.mem_cons_self)
    rw [parseU64, if_neg (by rw [hc]; exact (toDigit_digitChar d hd10).2.2), ← hd]
    exact h1

theorem decimal_inj {a b : Nat} (h : decimal a = decimal b) : a = b := by
  induction a using Nat.strong_induction_on generalizing b with
  | _ a ih =>
    have hchar : ∀ x y, x < 10 → y < 10 → digitChar x = digitChar y → x = y := by
      intro x y hx hy e
      have h1 := (toDigit_digitChar x hx).1
      rw [e, (toDigit_digitChar y hy).1] at h1
      injection h1 with h1
      exact h1.symm
    have hsmall : ∀ n, n < 10 → decimal n = [digitChar n] := fun n h => by rw [decimal, if_pos h]
    have hbig : ∀ n, ¬ n < 10 → decimal n = decimal (n / 10) ++ [digitChar (n % 10)] := fun n h => by
      rw [decimal, if_neg h]
    have hlen : ∀ n, 0 < (decimal n).length := fun n => List.length_pos_iff.2 (decimal_chars n).1
    by_cases ha : a < 10
    · by_cases hb : b < 10
      · rw [hsmall a ha, hsmall b hb] at h
        injection h with h _
        exact hchar a b ha hb h
      · rw [hsmall a ha, hbig b hb] at h
        have h1 := congrArg List.length h
        have h2 := hlen (b / 10)
        simp only [List.length_append, List.length_cons, List.length_nil] at h1
        omega
    · by_cases hb : b < 10
      · rw [hbig a ha, hsmall b hb] at h
        have h1 := congrArg List.length h
        have h2 := hlen (a / 10)
        simp only [List.length_append, List.length_cons, List.length_nil] at h1
        omega
      · rw [hbig a ha, hbig b hb] at h
        have h1 := List.append_inj' h rfl
        have h2 := ih (a / 10) (by omega) h1.1
        have h3 := hchar _ _ (by omega) (by omega) (List.cons.inj h1.2).1
        omega

/-! ## Splitting and trimming -/

theorem splitOn_ne_nil (c : Char) (s : Str) : splitOn c s ≠ [] := by
  cases s with
  | nil => simp [splitOn]
  | cons x s =>
    rw [splitOn]
    split
    · simp
    · split <;> simp

theorem splitOn_noSep (c : Char) (s : Str) (h : c ∉ s) : splitOn c s = [s] := by
  induction s with
  | nil => rfl
  | cons x s ih =>
    simp only [List.mem_cons, not_or] at h
    rw [splitOn, if_neg (fun e => h.1 e.symm), ih h.2]

/-- Splitting distributes over a separator. -/
theorem splitOn_append (c : Char) (a b : Str) : splitOn c (a ++ c :: b) = splitOn c a ++ splitOn c b := by
  induction a with
  | nil => simp [splitOn]
  | cons x a ih =>
    rw [List.cons_append, splitOn, splitOn, ih]
    split
    · rfl
    · cases hs : splitOn c a with
      | nil => exact absurd hs (splitOn_ne_nil c a)
      | cons p ps => rfl

theorem trimEnd_not (suf s : Str) (h : ¬ suf <:+ s) : trimEnd suf s = s := by
  rw [trimEnd, dif_neg (fun h' => h h'.2)]

theorem trimEnd_step (suf a : Str) (h : suf ≠ []) : trimEnd suf (a ++ suf) = trimEnd suf a := by
  rw [trimEnd, dif_pos ⟨h, List.suffix_append a suf⟩]
  congr 1
  simp

theorem trimEnd_length (suf s : Str) : (trimEnd suf s).length ≤ s.length := by
  induction hn : s.length using Nat.strong_induction_on generalizing s with
  | _ n ih =>
    rw [trimEnd]
    split
    · rename_i h
      have h1 := List.IsSuffix.length_le h.2
      have h2 := List.length_pos_iff.2 h.1
      have := ih (s.take (s.length - suf.length)).length (by rw [List.length_take]; omega) _ rfl
      rw [List.length_take] at this
      omega
    · omega

/-- Trimming gives back the string exactly if it does not end with the suffix itself. -/
theorem trimEnd_append_iff (suf a : Str) (h : suf ≠ []) : trimEnd suf (a ++ suf) = a ↔ ¬ suf <:+ a := by
  rw [trimEnd_step suf a h]
  constructor
  · intro he hs
    obtain ⟨b, rfl⟩ := hs
    rw [trimEnd_step suf b h] at he
    have h1 := trimEnd_length suf b
    have h2 := List.length_pos_iff.2 h
    rw [he, List.length_append] at h1
    omega
  · exact trimEnd_not suf a

/-! ## C62 -/

theorem partKey_eq (a : Str) (f l : Nat) : partKeyFilename a f l = a ++ intervalSuffix f l := by
  simp [partKeyFilename, intervalSuffix]

theorem intervalSuffix_ne (f l : Nat) : intervalSuffix f l ≠ [] := by simp [intervalSuffix]

theorem extract_partKey (a : Str) (f l : Nat) (hf : f ≤ l) (hl : l < u64Lim) :
    extractInterval (partKeyFilename a f l) = some (f, l) := by
  have hs : splitOn '.' (partKeyFilename a f l) =
      splitOn '.' a ++ [decimal f, decimal l, ['p', 'a', 'r', 't', 'k', 'e', 'y']] := by
    have e : partKeyFilename a f l = a ++ '.' :: (decimal f ++ '.' :: (decimal l ++ '.' :: ['p', 'a', 'r', 't', 'k', 'e', 'y'])) := by
      simp [partKeyFilename, partSuffix]
    rw [e, splitOn_append, splitOn_append, splitOn_append, splitOn_noSep _ _ (decimal_no_dot f),
      splitOn_noSep _ _ (decimal_no_dot l), splitOn_noSep '.' ['p', 'a', 'r', 't', 'k', 'e', 'y'] (by decide)]
    rfl
  have hn := List.length_pos_iff.2 (splitOn_ne_nil '.' a)
  rw [extractInterval, hs]
  generalize splitOn '.' a = P at hn
  have h1 : (P ++ [decimal f, decimal l, ['p', 'a', 'r', 't', 'k', 'e', 'y']]).getD (P.length + 3 - 3) [] = decimal f := by
    simp [List.getD]
  have h2 : (P ++ [decimal f, decimal l, ['p', 'a', 'r', 't', 'k', 'e', 'y']]).getD (P.length + 3 - 2) [] = decimal l := by
    rw [show P.length + 3 - 2 = P.length + 1 by omega]
    simp [List.getD]
  simp only [List.length_append, List.length_cons, List.length_nil, Nat.zero_add, Nat.reduceAdd]
  rw [if_neg (by omega), h1, h2, parseU64_decimal f (by omega), parseU64_decimal l hl]
  simp [hf]

theorem extract_bounds {s : Str} {f l : Nat} (h : extractInterval s = some (f, l)) : f ≤ l := by
  rw [extractInterval] at h
  split at h
  · cases h
  · split at h
    · split at h
      · injection h with h
        injection h with h1 h2
        omega
      · cases h
    · cases h

/-- C62, the part that holds: the part-key file name of an account and an ordered interval is recognised, belongs to
that account and gives back its name, exactly for account names that do not themselves end with the interval's suffix.
Missing: account names that do. -/
theorem C62_partkey_partial (account : Str) (first last : Nat) (h : first ≤ last) (hl : last < u64Lim) :
    matchesPartKeyFilename account (partKeyFilename account first last) = true ∧
    (isPartKeyFilename (partKeyFilename account first last) = true ↔ ¬ intervalSuffix first last <:+ account) ∧
    (accountFromPart (partKeyFilename account first last) = account ↔ ¬ intervalSuffix first last <:+ account) := by
  have he := extract_partKey account first last h hl
  have ha : accountFromPart (partKeyFilename account first last) = account ↔ ¬ intervalSuffix first last <:+ account := by
    rw [accountFromPart, he]
    simp only
    rw [partKey_eq]
    exact trimEnd_append_iff _ _ (intervalSuffix_ne first last)
  refine ⟨by simp [matchesPartKeyFilename, he], ?_, ha⟩
  rw [← ha, isPartKeyFilename, matchesPartKeyFilename, he]
  simp only [decide_eq_true_eq]
  constructor
  · intro h1
    rw [partKey_eq, partKey_eq] at h1
    rw [partKey_eq]
    exact List.append_cancel_right h1
  · intro h1; rw [h1]

/-- C62 fails: the file name of the account `a.1.2.partkey` for rounds 1 to 2 is not recognised and gives another
account name. -/
theorem C62_violated : ∃ account : Str, ∃ first last : Nat, first ≤ last ∧ last < u64Lim ∧
    isPartKeyFilename (partKeyFilename account first last) = false ∧
    accountFromPart (partKeyFilename account first last) ≠ account := by
  obtain ⟨_, h2, h3⟩ := C62_partkey_partial ('a' :: intervalSuffix 1 2) 1 2 (by decide) (by decide)
  have hs : intervalSuffix 1 2 <:+ 'a' :: intervalSuffix 1 2 := List.suffix_cons _ _
  refine ⟨'a' :: intervalSuffix 1 2, 1, 2, by decide, by decide, ?_, ?_⟩
  · rw [← Bool.not_eq_true, h2]; exact fun h => h hs
  · rw [Ne, h3]; exact fun h => h hs

/-- C62 fails: no file name is ever recognised as a root key file. -/
theorem C62_root_never_recognised (filename : Str) : isRootKeyFilename filename = false := by
  have key : ∀ n : Str, n = filename → rootKeyFilename n ≠ filename := by
    rintro n rfl h
    have := congrArg List.length h
    simp [rootKeyFilename, rootSuffix] at this
  rw [isRootKeyFilename, matchesRootKeyFilename, accountFromPart, decide_eq_false_iff_not]
  cases he : extractInterval filename with
  | none => exact key _ rfl
  | some fl =>
    obtain ⟨f, l⟩ := fl
    simp only
    by_cases hs : intervalSuffix f l <:+ filename
    · intro h
      obtain ⟨a, ha⟩ := hs
      have h1 : rootKeyFilename (trimEnd (intervalSuffix f l) filename) =
          (a ++ '.' :: decimal f ++ '.' :: decimal l) ++ partSuffix := by
        rw [h, ← ha]; simp [intervalSuffix]
      rw [rootKeyFilename] at h1
      have h2 := (List.append_inj' h1 rfl).2
      exact absurd h2 (by decide)
    · exact key _ (trimEnd_not _ _ hs)

/-- C62: what is recognised as a part-key file is the file name of the account it names and of some ordered interval. -/
theorem C62_recognised_sound (filename : Str) (h : isPartKeyFilename filename = true) :
    ∃ first last, first ≤ last ∧ filename = partKeyFilename (accountFromPart filename) first last := by
  rw [isPartKeyFilename, matchesPartKeyFilename] at h
  cases he : extractInterval filename with
  | none => rw [he] at h; cases h
  | some fl =>
    obtain ⟨f, l⟩ := fl
    rw [he] at h
    simp only [decide_eq_true_eq] at h
    exact ⟨f, l, extract_bounds he, h.symm⟩

/-- C62: different accounts or intervals have different part-key files, and no file is both a root key and a part-key
file. -/
theorem C62_names_distinct (a a' : Str) (f f' l l' : Nat) :
    (partKeyFilename a f l = partKeyFilename a' f' l' → a = a' ∧ f = f' ∧ l = l') ∧
    (rootKeyFilename a = rootKeyFilename a' → a = a') ∧
    rootKeyFilename a ≠ partKeyFilename a' f l := by
  have cut : ∀ (x x' y y' : Str), '.' ∉ y → '.' ∉ y' → x ++ '.' :: y = x' ++ '.' :: y' → x = x' ∧ y = y' := by
    intro x x' y y' hy hy' h
    have hlen : y.length = y'.length := by
      have h1 := congrArg (splitOn '.') h
      rw [splitOn_append, splitOn_append, splitOn_noSep _ _ hy, splitOn_noSep _ _ hy'] at h1
      have h2 := (List.append_inj' h1 rfl).2
      rw [(List.cons.inj h2).1]
    have h3 := List.append_inj' h (by simp [hlen])
    exact ⟨h3.1, (List.cons.inj h3.2).2⟩
  refine ⟨?_, ?_, ?_⟩
  · intro h
    have h1 := (List.append_inj' h rfl).1
    obtain ⟨h2, h3⟩ := cut _ _ _ _ (decimal_no_dot l) (decimal_no_dot l') h1
    obtain ⟨h4, h5⟩ := cut _ _ _ _ (decimal_no_dot f) (decimal_no_dot f') h2
    exact ⟨h4, decimal_inj h5, decimal_inj h3⟩
  · intro h; exact List.append_cancel_right h
  · intro h
    exact absurd (List.append_inj' h rfl).2 (by decide)

/-- C62, the part that holds for root keys: the name belongs to its account, and gives back the account exactly if the
account does not itself end in `.rootkey`. Missing: other accounts, and recognition (see `C62_root_never_recognised`). -/
theorem C62_rootkey_partial (account : Str) :
    matchesRootKeyFilename account (rootKeyFilename account) = true ∧
    (accountFromRoot (rootKeyFilename account) = account ↔ ¬ rootSuffix <:+ account) :=
  ⟨by simp [matchesRootKeyFilename], trimEnd_append_iff _ _ (by decide)⟩

/-- C62: any other file name is returned unchanged as the account name. -/
theorem C62_others_unchanged (filename : Str) :
    ((∀ a f l, f ≤ l → filename ≠ partKeyFilename a f l) → accountFromPart filename = filename) ∧
    ((∀ a, filename ≠ rootKeyFilename a) → accountFromRoot filename = filename) := by
  constructor
  · intro h
    rw [accountFromPart]
    cases he : extractInterval filename with
    | none => rfl
    | some fl =>
      obtain ⟨f, l⟩ := fl
      refine trimEnd_not _ _ ?_
      rintro ⟨a, ha⟩
      exact h a f l (extract_bounds he) (by rw [partKey_eq]; exact ha.symm)
  · intro h
    refine trimEnd_not _ _ ?_
    rintro ⟨a, ha⟩
    exact h a ha.symm

-- the account `my.wallet` and the interval 7 to 1500
example : partKeyFilename ['m', 'y', '.', 'w'] 7 1500 =
    ['m', 'y', '.', 'w', '.', '7', '.', '1', '5', '0', '0', '.', 'p', 'a', 'r', 't', 'k', 'e', 'y'] ∧
    isPartKeyFilename (partKeyFilename ['m', 'y', '.', 'w'] 7 1500) = true ∧
    accountFromPart (partKeyFilename ['m', 'y', '.', 'w'] 7 1500) = ['m', 'y', '.', 'w'] := by
  have hn : ¬ intervalSuffix 7 1500 <:+ ['m', 'y', '.', 'w'] := by
    intro h
    have := h.length_le
    simp [intervalSuffix, partSuffix] at this
    omega
  obtain ⟨_, h2, h3⟩ := C62_partkey_partial ['m', 'y', '.', 'w'] 7 1500 (by decide) (by decide)
  exact ⟨by simp [partKeyFilename, decimal, partSuffix, digitChar], h2.2 hn, h3.2 hn⟩

theorem decimal_toDigits (n : Nat) : decimal n = Nat.toDigits 10 n := by
  induction n using Nat.strongRecOn with
  | _ n ih =>
    rw [decimal]
    split
    · rename_i h
      have : ∀ m < 10, [digitChar m] = Nat.toDigits 10 m := by decide
      exact this n h
    · rename_i h
      rw [ih (n / 10) (by omega), Nat.toDigits_of_base_le (n := n) (by decide) (by omega)]
      congr 1
      have : n % 10 < 10 := Nat.mod_lt _ (by decide)
      have h2 : ∀ m < 10, [digitChar m] = [Nat.digitChar m] := by decide
      exact h2 _ this

/-- C62: the file names, letter by letter. -/
theorem C62_names (account : Str) (first last : Nat) :
    rootKeyFilename account = account ++ ['.', 'r', 'o', 'o', 't', 'k', 'e', 'y'] ∧
    partKeyFilename account first last = account ++ ['.'] ++ Nat.toDigits 10 first ++ ['.'] ++ Nat.toDigits 10 last ++
      ['.', 'p', 'a', 'r', 't', 'k', 'e', 'y'] := by
  refine ⟨rfl, ?_⟩
  rw [← decimal_toDigits, ← decimal_toDigits]
  simp [partKeyFilename, partSuffix]

/-- A case of `C62_recognised_sound`. -/
example : ∃ first last, first ≤ last ∧ partKeyFilename ['m', 'y', '.', 'w'] 7 1500 =
    partKeyFilename (accountFromPart (partKeyFilename ['m', 'y', '.', 'w'] 7 1500)) first last :=
  C62_recognised_sound _ (by decide +kernel)

end Verif.Props
