import Verif.Lemmas.MnemonicWords
/-!
# C10, C11: mnemonics

Specification: read the key as a little-endian number `N`. The mnemonic is the
24 little-endian base-2048 digits of `N`, looked up in the word list, followed by
the word numbered by the low 11 bits of the first two hash bytes (again little-endian).
-/

namespace Verif.Props
open Verif Verif.Mnemonic Verif.Digits

variable {W : Type} [DecidableEq W]

/-- A byte string as a little-endian number. -/
def leNumber (bs : Bytes) : Nat := bs.foldr (fun b acc => b.toNat + 256 * acc) 0

/-- `m` is the mnemonic of `key`. -/
structure IsMnemonicOf (words : List W) (hash : Bytes → Bytes) (key : Bytes) (m : List W) : Prop where
  /-- 25 words -/
  len : m.length = 25
  /-- the first 24 are the base-2048 digits of the key -/
  data : ∀ i, i < 24 → m[i]? = words[leNumber key / 2048 ^ i % 2048]?
  /-- the last one is the checksum -/
  chk : m[24]? = words[(((hash key).getD 0 0).toNat + 256 * ((hash key).getD 1 0).toNat) % 2048]?

theorem leNumber_eq (bs : Bytes) : leNumber bs = val 256 (nums bs) := by
  induction bs with
  | nil => rfl
  | cons b bs ih => simp only [leNumber, List.foldr_cons] at ih ⊢; rw [ih]; rfl

theorem checksum_ok {ε : Type} (hash : Bytes → Bytes) (hh : ∀ x, (hash x).length = 32) (key : Bytes) :
    (checksum hash key : Res ε Nat)
      = .ok ((((hash key).getD 0 0).toNat + 256 * ((hash key).getD 1 0).toNat) % 2048) := by
  match h : hash key, hh key with
  | [], h' => simp at h'
  | [_], h' => simp at h'
  | h0 :: h1 :: tl, _ => rw [checksum_eq hash key h0 h1 tl h]; simp

/-- `key_to_mnemonic` never panics on a 32-byte key and prints the specified words. -/
theorem C10_key_to_mnemonic_spec (words : List W) (hw : words.length = 2048)
    (hash : Bytes → Bytes) (hh : ∀ x, (hash x).length = 32) (key : Bytes) (hk : key.length = 32) :
    ∃ m, keyToMnemonic words hash key = .ok m ∧ IsMnemonicOf words hash key m ∧
      ∀ w ∈ m, w ∈ words := by
  obtain ⟨hd, hl, hv⟩ := toBase11_spec key
  rw [hk] at hl
  obtain ⟨ws, hws⟩ := wordsAt_total (ε := Empty) words (toBase11 key)
    (fun d h => by rw [hw]; exact hd d h)
  obtain ⟨hwl, hwi⟩ := (wordsAt_ok_iff words _ _).1 hws
  have hc : (((hash key).getD 0 0).toNat + 256 * ((hash key).getD 1 0).toNat) % 2048
      < words.length := by rw [hw]; exact Nat.mod_lt _ (by decide)
  have hcw := List.getElem?_eq_getElem hc
  refine ⟨_, by simp only [keyToMnemonic, hws, Res.ok_bind, checksum_ok hash hh, wordAt, hcw,
    Res.ofOption_some]; rfl, ⟨by simp [hwl, hl], ?_, ?_⟩, ?_⟩
  · intro i hi
    have hi' : i < (toBase11 key).length := by omega
    have e := getElem?_eq_digit 2048 _ hd i hi'
    rw [hv, ← leNumber_eq] at e
    obtain ⟨w, h1, h2⟩ := hwi i _ e
    rw [h2, List.getElem?_append_left (by omega), h1]
  · rw [List.getElem?_append_right (by omega), hwl, hl]
    exact hcw.symm
  · intro w h
    rcases List.mem_append.1 h with h | h
    · obtain ⟨i, hi, rfl⟩ := List.mem_iff_getElem.1 h
      have hi' : i < (toBase11 key).length := by omega
      obtain ⟨w, h1, h2⟩ := hwi i _ (List.getElem?_eq_getElem hi')
      rw [List.getElem?_eq_getElem hi, Option.some.injEq] at h1
      rw [h1]; exact List.mem_of_getElem? h2
    · rw [List.mem_singleton] at h; rw [h]; exact List.getElem_mem hc

/-- C11: `mnemonic_to_key` accepts exactly the specified mnemonics, and returns the key they
spell; it never accepts anything else. -/
theorem C11_accepts_iff (words : List W) (hw : words.length = 2048) (hn : words.Nodup)
    (hash : Bytes → Bytes) (hh : ∀ x, (hash x).length = 32) (m : List W) (key : Bytes) :
    mnemonicToKey words hash m = .ok key ↔ key.length = 32 ∧ IsMnemonicOf words hash key m := by
  constructor
  · intro h
    simp only [mnemonicToKey] at h
    split at h
    · cases h
    rename_i hlen
    rw [ne_eq, Decidable.not_not] at hlen
    rw [Res.bind_eq_ok] at h
    obtain ⟨ps, hps, h⟩ := h
    obtain ⟨hpl, hpi⟩ := (positions_ok_iff words hn m ps).1 hps
    have hplt : ∀ d ∈ ps, d < 2048 := by
      intro d hd
      obtain ⟨i, hi, rfl⟩ := List.mem_iff_getElem.1 hd
      obtain ⟨w, _, h2⟩ := hpi i _ (List.getElem?_eq_getElem hi)
      rw [← hw]; exact (List.getElem?_eq_some_iff.1 h2).1
    have hne : ps ≠ [] := by intro e; rw [e] at hpl; simp [hlen] at hpl
    obtain ⟨init, c, rfl⟩ : ∃ init c, ps = init ++ [c] :=
      ⟨ps.dropLast, ps.getLast hne, (List.dropLast_append_getLast hne).symm⟩
    have hil : init.length = 24 := by simp [hlen] at hpl; omega
    have hilt : ∀ d ∈ init, d < 2048 := fun d hd => hplt d (List.mem_append_left _ hd)
    obtain ⟨hbl, hbv⟩ := toBase8_spec init hilt 33 (by omega)
    simp only [List.dropLast_concat, hbl, ne_eq, not_true_eq_false, if_false,
      List.getLast?_append, List.getLast?_singleton, Option.some_or] at h
    have h32 : 32 < (toBase8 init).length := by omega
    rw [List.getElem?_eq_getElem h32] at h
    simp only at h
    split at h
    · cases h
    rename_i hz
    rw [Decidable.not_not] at hz
    rw [checksum_ok hash hh, Res.ok_bind] at h
    split at h
    · rename_i hc
      injection h with h
      have hkl : key.length = 32 := by rw [← h]; simp [hbl]
      have hsplit : toBase8 init = key ++ [0] := by
        have hne' : toBase8 init ≠ [] := by intro e; rw [e] at hbl; simp at hbl
        rw [← List.dropLast_append_getLast hne', h]
        congr 2
        rw [List.getLast_eq_getElem]; simp only [hbl]; exact hz
      have hval : leNumber key = val 2048 init := by
        rw [← hbv, hsplit, leNumber_eq, nums_append, val_append]; simp [nums]
      refine ⟨hkl, ⟨hlen, ?_, ?_⟩⟩
      · intro i hi
        have e := getElem?_eq_digit 2048 init hilt i (by omega)
        obtain ⟨w, h1, h2⟩ := hpi i _ (by rw [List.getElem?_append_left (by omega)]; exact e)
        rw [hval, h1, h2]
      · rw [h] at hc
        rw [hc]
        obtain ⟨w, h1, h2⟩ := hpi 24 c (by rw [List.getElem?_append_right (by omega), hil]; rfl)
        rw [h1, h2]
    · cases h
  · rintro ⟨hk, hlen, hdata, hchk⟩
    obtain ⟨hd, hl, hv⟩ := toBase11_spec key
    rw [hk] at hl
    have hl : (toBase11 key).length = 24 := hl
    generalize hcdef : (((hash key).getD 0 0).toNat + 256 * ((hash key).getD 1 0).toNat) % 2048 = c
      at hchk
    have hclt : c < 2048 := by rw [← hcdef]; exact Nat.mod_lt _ (by decide)
    have hps : positions words m = .ok (toBase11 key ++ [c]) := by
      rw [positions_ok_iff words hn]
      refine ⟨by simp [hl, hlen], ?_⟩
      intro i d he
      by_cases hi : i < 24
      · rw [List.getElem?_append_left (by omega), getElem?_eq_digit 2048 _ hd i (by omega), hv,
          ← leNumber_eq, Option.some.injEq] at he
        have hlt : d < words.length := by rw [hw, ← he]; exact Nat.mod_lt _ (by decide)
        exact ⟨words[d], by rw [hdata i hi, he]; exact List.getElem?_eq_getElem hlt,
          List.getElem?_eq_getElem hlt⟩
      · rw [List.getElem?_append_right (by omega), hl] at he
        have hi24 : i = 24 := by
          have := (List.getElem?_eq_some_iff.1 he).1
          simp at this; omega
        subst hi24
        simp only [Nat.sub_self, List.getElem?_cons_zero, Option.some.injEq] at he
        subst he
        have hlt : c < words.length := by rw [hw]; exact hclt
        exact ⟨words[c], by rw [hchk]; exact List.getElem?_eq_getElem hlt,
          List.getElem?_eq_getElem hlt⟩
    obtain ⟨hbl, hbv⟩ := toBase8_spec (toBase11 key) hd 33 (by omega)
    have hb : toBase8 (toBase11 key) = key ++ [0] := by
      apply nums_inj
      apply val_inj 256 _ _ (by simp [hbl, hk]) (nums_lt _) (nums_lt _)
      rw [hbv, hv, nums_append, val_append]; simp [nums]
    simp only [mnemonicToKey, hlen, ne_eq, not_true_eq_false, if_false, hps, Res.ok_bind,
      List.dropLast_concat, hb, List.length_append, hk, List.length_singleton,
      List.getLast?_append, List.getLast?_singleton, Option.some_or]
    have : (key ++ [(0 : UInt8)])[32]? = some 0 := by
      rw [List.getElem?_append_right (by omega), hk]; rfl
    simp only [this, not_true_eq_false, if_false, checksum_ok hash hh, Res.ok_bind, hcdef, if_true]

/-- C10: round trip through the word list. -/
theorem C10_roundtrip (words : List W) (hw : words.length = 2048) (hn : words.Nodup)
    (hash : Bytes → Bytes) (hh : ∀ x, (hash x).length = 32) (key : Bytes) (hk : key.length = 32) :
    ∃ m, keyToMnemonic words hash key = .ok m ∧ m.length = 25 ∧ (∀ w ∈ m, w ∈ words) ∧
      mnemonicToKey words hash m = .ok key := by
  obtain ⟨m, h1, h2, h3⟩ := C10_key_to_mnemonic_spec words hw hash hh key hk
  exact ⟨m, h1, h2.len, h3, (C11_accepts_iff words hw hn hash hh m key).2 ⟨hk, h2⟩⟩

theorem isMnemonicOf_unique (words : List W) (hash : Bytes → Bytes) (key : Bytes) (m m' : List W)
    (h : IsMnemonicOf words hash key m) (h' : IsMnemonicOf words hash key m') : m = m' := by
  apply List.ext_getElem? ; intro i
  by_cases h1 : i < 24
  · rw [h.data i h1, h'.data i h1]
  · by_cases h2 : i = 24
    · subst h2; rw [h.chk, h'.chk]
    · rw [List.getElem?_eq_none_iff.2 (by rw [h.len]; omega),
        List.getElem?_eq_none_iff.2 (by rw [h'.len]; omega)]

/-- C11: an accepted list is the one `key_to_mnemonic` prints. -/
theorem C11_accepted_is_canonical (words : List W) (hw : words.length = 2048) (hn : words.Nodup)
    (hash : Bytes → Bytes) (hh : ∀ x, (hash x).length = 32) (m : List W) (key : Bytes)
    (h : mnemonicToKey words hash m = .ok key) : keyToMnemonic words hash key = .ok m := by
  obtain ⟨hk, hm⟩ := (C11_accepts_iff words hw hn hash hh m key).1 h
  obtain ⟨m', h1, h2, _⟩ := C10_key_to_mnemonic_spec words hw hash hh key hk
  rw [h1, isMnemonicOf_unique words hash key m' m h2 hm]

/-- C11: two keys never share a mnemonic. -/
theorem C11_injective (words : List W) (hw : words.length = 2048) (hn : words.Nodup)
    (hash : Bytes → Bytes) (hh : ∀ x, (hash x).length = 32) (k k' : Bytes)
    (hk : k.length = 32) (hk' : k'.length = 32)
    (h : keyToMnemonic words hash k = keyToMnemonic words hash k') : k = k' := by
  obtain ⟨m, h1, _, _, h2⟩ := C10_roundtrip words hw hn hash hh k hk
  obtain ⟨m', h1', _, _, h2'⟩ := C10_roundtrip words hw hn hash hh k' hk'
  rw [h1, h1'] at h
  injection h with h; subst h
  rw [h2] at h2'; injection h2'

/-- C11: wrong length. -/
theorem C11_wrong_length (words : List W) (hash : Bytes → Bytes) (m : List W) (h : m.length ≠ 25) :
    mnemonicToKey words hash m = .err (.wrongMnemonicLen m.length) := by
  simp [mnemonicToKey, h]

/-- C11: the first word that is not in the list is reported. -/
theorem C11_unknown_word (words : List W) (hash : Bytes → Bytes) (pre : List W) (w : W)
    (post : List W) (hlen : (pre ++ w :: post).length = 25) (hpre : ∀ x ∈ pre, x ∈ words)
    (hw : w ∉ words) :
    mnemonicToKey words hash (pre ++ w :: post) = .err (.invalidWord w) := by
  rw [mnemonicToKey, if_neg (by simpa using hlen), positions_unknown words pre w post hpre hw]
  rfl

/-- C11: 25 known words that are nobody's mnemonic are reported as a checksum failure; in
particular no list of words makes the function panic. -/
theorem C11_wrong_checksum (words : List W) (hw : words.length = 2048) (hn : words.Nodup)
    (hash : Bytes → Bytes) (hh : ∀ x, (hash x).length = 32) (m : List W) (hlen : m.length = 25)
    (hm : ∀ w ∈ m, w ∈ words)
    (hno : ¬ ∃ key, key.length = 32 ∧ IsMnemonicOf words hash key m) :
    mnemonicToKey words hash m = .err .wrongChecksum := by
  obtain ⟨ps, hps⟩ := positions_known words m hm
  have hno' : ∀ key, mnemonicToKey words hash m ≠ .ok key := fun key h =>
    hno ⟨key, (C11_accepts_iff words hw hn hash hh m key).1 h⟩
  obtain ⟨hpl, hpi⟩ := (positions_ok_iff words hn m ps).1 hps
  have hplt : ∀ d ∈ ps, d < 2048 := by
    intro d hd
    obtain ⟨i, hi, rfl⟩ := List.mem_iff_getElem.1 hd
    obtain ⟨w, _, h2⟩ := hpi i _ (List.getElem?_eq_getElem hi)
    rw [← hw]; exact (List.getElem?_eq_some_iff.1 h2).1
  have hne : ps ≠ [] := by intro e; rw [e] at hpl; simp [hlen] at hpl
  obtain ⟨init, c, rfl⟩ : ∃ init c, ps = init ++ [c] :=
    ⟨ps.dropLast, ps.getLast hne, (List.dropLast_append_getLast hne).symm⟩
  have hil : init.length = 24 := by simp [hlen] at hpl; omega
  obtain ⟨hbl, _⟩ := toBase8_spec init (fun d hd => hplt d (List.mem_append_left _ hd)) 33 (by omega)
  have h32 : 32 < (toBase8 init).length := by omega
  simp only [mnemonicToKey, hlen, ne_eq, not_true_eq_false, if_false, hps, Res.ok_bind,
    List.dropLast_concat, hbl, List.getElem?_eq_getElem h32, List.getLast?_append,
    List.getLast?_singleton, Option.some_or, checksum_ok hash hh] at hno' ⊢
  split
  · rfl
  · rename_i hz
    simp only [hz, if_false] at hno'
    split
    · rename_i hc
      exact absurd (by rw [if_pos hc]) (hno' (toBase8 init).dropLast)
    · rfl

/-- Joining words with one space. -/
def joinSp : List (List Char) → List Char
  | [] => []
  | [w] => w
  | w :: ws => w ++ ' ' :: joinSp ws

theorem splitWs_joinSp (ws : List (List Char))
    (h : ∀ w ∈ ws, w ≠ [] ∧ ∀ c ∈ w, isWhitespace c = false) : splitWsAux [] (joinSp ws) = ws := by
  induction ws with
  | nil => rfl
  | cons w ws ih =>
    have hw := h w List.mem_cons_self
    have ih' := ih (fun x hx => h x (List.mem_cons_of_mem _ hx))
    have he : w.isEmpty = false := by simpa using hw.1
    cases ws with
    | nil =>
      have := splitWs_word w hw.2 [] []
      simp only [List.append_nil, List.nil_append] at this
      simp [joinSp, this, splitWsAux, he, hw.1]
    | cons v vs =>
      rw [joinSp, splitWs_word w hw.2 [], List.nil_append, splitWsAux]
      · have : isWhitespace ' ' = true := by decide
        simp only [this, if_true, he, Bool.false_eq_true, if_false, ih']
      · simp

/-- C10 for the shipped word list and the phrase form: the words joined by spaces are read back
to the same key. -/
theorem C10_phrase_roundtrip (hash : Bytes → Bytes) (hh : ∀ x, (hash x).length = 32)
    (key : Bytes) (hk : key.length = 32) :
    ∃ m, keyToMnemonic englishWords hash key = .ok m ∧
      phraseToKey englishWords hash (joinSp m) = .ok key := by
  obtain ⟨m, h1, _, h3, h4⟩ :=
    C10_roundtrip englishWords englishWords_length englishWords_nodup hash hh key hk
  refine ⟨m, h1, ?_⟩
  rw [phraseToKey, splitWs_joinSp m (fun w hw => englishWords_lower w (h3 w hw)), h4]

/-- C11 for the shipped word list: `phrase_to_key` never panics, whatever the text. -/
theorem C11_phrase_never_panics (hash : Bytes → Bytes) (hh : ∀ x, (hash x).length = 32)
    (phrase : List Char) : phraseToKey englishWords hash phrase ≠ .panic := by
  rw [phraseToKey]
  generalize splitWsAux [] phrase = m
  by_cases hl : m.length = 25
  · by_cases hm : ∀ w ∈ m, w ∈ englishWords
    · by_cases hk : ∃ key, key.length = 32 ∧ IsMnemonicOf englishWords hash key m
      · obtain ⟨key, hk⟩ := hk
        rw [(C11_accepts_iff _ englishWords_length englishWords_nodup hash hh m key).2 hk]; simp
      · rw [C11_wrong_checksum _ englishWords_length englishWords_nodup hash hh m hl hm hk]; simp
    · -- split at the first unknown word
      have : ∃ pre w post, m = pre ++ w :: post ∧ (∀ x ∈ pre, x ∈ englishWords) ∧
          w ∉ englishWords := by
        clear hl
        induction m with
        | nil => exact absurd (by simp) hm
        | cons x m ih =>
          by_cases hx : x ∈ englishWords
          · obtain ⟨pre, w, post, e, h1, h2⟩ := ih (fun hall => hm (by
              intro y hy; rcases List.mem_cons.1 hy with rfl | hy
              · exact hx
              · exact hall y hy))
            exact ⟨x :: pre, w, post, by rw [e]; rfl, by
              intro y hy; rcases List.mem_cons.1 hy with rfl | hy
              · exact hx
              · exact h1 y hy, h2⟩
          · exact ⟨[], x, m, rfl, by simp, hx⟩
      obtain ⟨pre, w, post, rfl, h1, h2⟩ := this
      rw [C11_unknown_word _ hash pre w post hl h1 h2]; simp
  · rw [C11_wrong_length _ hash m hl]; simp

/-- The hypotheses hold for a list of 2048 distinct numbers and a constant hash, and a
non-trivial key is carried through. -/
example : (List.range 2048).length = 2048 ∧ (List.range 2048).Nodup ∧
    (∀ x : Bytes, ((fun _ => List.replicate 32 7) x : Bytes).length = 32) ∧
    (keyToMnemonic (List.range 2048) (fun _ => List.replicate 32 7)
      (List.replicate 31 255 ++ [1])).isOk = true := by
  refine ⟨by simp, List.nodup_range, by simp, ?_⟩
  obtain ⟨m, h, _⟩ := C10_key_to_mnemonic_spec (List.range 2048) (by simp)
    (fun _ => List.replicate 32 7) (by simp) (List.replicate 31 255 ++ [1]) (by simp)
  rw [h]; rfl

/-! ## Which texts are phrases -/

/-- The characters with the property `White_Space` in the Unicode character database. -/
def whiteSpaceCodes : List Nat :=
  [0x9, 0xA, 0xB, 0xC, 0xD, 0x20, 0x85, 0xA0, 0x1680, 0x2000, 0x2001, 0x2002, 0x2003, 0x2004, 0x2005, 0x2006, 0x2007,
   0x2008, 0x2009, 0x200A, 0x2028, 0x2029, 0x202F, 0x205F, 0x3000]

/-- `text` consists of the words `ms`, each free of white space, with white space between them and possibly around them. -/
inductive Spaced : List (List Char) → List Char → Prop where
  | nil (gap : List Char) (hg : ∀ c ∈ gap, c.toNat ∈ whiteSpaceCodes) : Spaced [] gap
  | cons (gap w : List Char) (ms : List (List Char)) (rest : List Char) (hg : ∀ c ∈ gap, c.toNat ∈ whiteSpaceCodes)
      (hne : w ≠ []) (hw : ∀ c ∈ w, c.toNat ∉ whiteSpaceCodes)
      (hend : ∀ c, rest.head? = some c → c.toNat ∈ whiteSpaceCodes) (hr : Spaced ms rest) :
      Spaced (w :: ms) (gap ++ w ++ rest)

theorem isWhitespace_iff (c : Char) : isWhitespace c = true ↔ c.toNat ∈ whiteSpaceCodes := by
  simp only [isWhitespace, whiteSpaceCodes, Bool.or_eq_true, decide_eq_true_eq, List.mem_cons, List.not_mem_nil, or_false]
  omega

theorem isWhitespace_false_iff (c : Char) : isWhitespace c = false ↔ c.toNat ∉ whiteSpaceCodes := by
  rw [← isWhitespace_iff, Bool.not_eq_true]

theorem splitWs_spaced : ∀ (text cur : List Char), (∀ c ∈ cur, c.toNat ∉ whiteSpaceCodes) →
    Spaced (splitWsAux cur text) (cur ++ text)
  | [], cur, hc => by
    rw [splitWsAux]
    by_cases h : cur = []
    · subst h; exact .nil [] (by simp)
    · rw [if_neg (by simpa using h)]
      have := Spaced.cons [] cur [] [] (by simp) h hc (by simp) (.nil [] (by simp))
      simpa using this
  | c :: text, cur, hc => by
    rw [splitWsAux]
    cases hw : isWhitespace c with
    | true =>
      have hw' := (isWhitespace_iff c).1 hw
      have ih := splitWs_spaced text [] (by simp)
      have ext : ∀ ms, Spaced ms text → Spaced ms (c :: text) := by
        intro ms h
        cases h with
        | nil _ hg => exact .nil _ (by simpa using ⟨hw', hg⟩)
        | cons gap w ms rest hg hne hw2 hend hr =>
          have := Spaced.cons (c :: gap) w ms rest (by simpa using ⟨hw', hg⟩) hne hw2 hend hr
          simpa using this
      by_cases h : cur = []
      · subst h
        simpa using ext _ ih
      · have := Spaced.cons [] cur _ (c :: text) (by simp) h hc (by simpa using hw') (ext _ ih)
        simpa [h] using this
    | false =>
      have hw' := (isWhitespace_false_iff c).1 hw
      have ih := splitWs_spaced text (cur ++ [c]) (by
        intro x hx
        rcases List.mem_append.1 hx with h | h
        · exact hc x h
        · rw [List.mem_singleton.1 h]; exact hw')
      simpa using ih

theorem spaced_splitWs (ms : List (List Char)) (text : List Char) (h : Spaced ms text) : splitWsAux [] text = ms := by
  induction h with
  | nil gap hg =>
    have := splitWs_ws gap (fun c hc => (isWhitespace_iff c).2 (hg c hc)) []
    rw [List.append_nil] at this
    rw [this]; rfl
  | cons gap w ms rest hg hne hw hend _ ih =>
    rw [List.append_assoc, splitWs_ws gap (fun c hc => (isWhitespace_iff c).2 (hg c hc)),
      splitWs_word w (fun c hc => (isWhitespace_false_iff c).2 (hw c hc)), List.nil_append]
    cases rest with
    | nil =>
      rw [splitWsAux] at ih ⊢
      simp only [List.isEmpty_nil, if_true] at ih
      simp [hne, ← ih]
    | cons c rest =>
      have hc := (isWhitespace_iff c).2 (hend c rfl)
      rw [splitWsAux, hc] at ih ⊢
      simp only [List.isEmpty_nil, if_true] at ih
      simp [hne, ih]

/-- C11: a text is accepted for a key exactly if it is the key's mnemonic written with any white space of Unicode between the
words, and possibly before and after them. -/
theorem C11_phrase_iff (words : List (List Char)) (hw : words.length = 2048) (hn : words.Nodup)
    (hash : Bytes → Bytes) (hh : ∀ x, (hash x).length = 32) (text : List Char) (key : Bytes) :
    phraseToKey words hash text = .ok key ↔
    key.length = 32 ∧ ∃ ms, Spaced ms text ∧ IsMnemonicOf words hash key ms := by
  rw [phraseToKey, C11_accepts_iff words hw hn hash hh]
  refine and_congr_right fun _ => ⟨fun h => ⟨_, splitWs_spaced text [] (by simp), h⟩, ?_⟩
  rintro ⟨ms, h1, h2⟩
  rw [spaced_splitWs ms text h1]
  exact h2

/-- C11: a text is a list of words in one way only. -/
theorem C11_words_unique (text : List Char) : ∃! ms, Spaced ms text :=
  ⟨_, splitWs_spaced text [] (by simp), fun ms h => (spaced_splitWs ms text h).symm⟩

/-- A case of `Spaced` as in `C11_phrase_iff`: a tab, an ideographic space and a line end between words. -/
example : Spaced ["ab".toList, "c".toList] "\tab　c\n".toList :=
  .cons ['\t'] ['a', 'b'] [['c']] ['　', 'c', '\n'] (by decide) (by decide) (by decide) (by decide)
    (.cons ['　'] ['c'] [] ['\n'] (by decide) (by decide) (by decide) (by decide) (.nil ['\n'] (by decide)))

/-- A hash for the cases below, with digest bytes 7. -/
def sevens (_ : Bytes) : Bytes := List.replicate 32 7

theorem sevens_length (x : Bytes) : (sevens x).length = 32 := List.length_replicate

/-- The mnemonic of the key with all bytes 0: word 0 repeated, and the checksum word with number `7 + 256 * 7`. -/
theorem zeroKey_mnemonic : IsMnemonicOf (List.range 2048) sevens (List.replicate 32 0) (List.replicate 24 0 ++ [1799]) :=
  ⟨rfl, by decide +kernel, by decide +kernel⟩

/-- A case of `C11_accepts_iff`, `C10_roundtrip` and `C11_accepted_is_canonical`. -/
example : mnemonicToKey (List.range 2048) sevens (List.replicate 24 0 ++ [1799]) = .ok (List.replicate 32 0) ∧
    keyToMnemonic (List.range 2048) sevens (List.replicate 32 0) = .ok (List.replicate 24 0 ++ [1799]) := by
  have h := (C11_accepts_iff (List.range 2048) List.length_range List.nodup_range sevens sevens_length _ _).2
    ⟨List.length_replicate, zeroKey_mnemonic⟩
  exact ⟨h, C11_accepted_is_canonical _ List.length_range List.nodup_range sevens sevens_length _ _ h⟩

/-- A case of `C11_injective`: two keys that differ in the last bit have different mnemonics. -/
example : keyToMnemonic (List.range 2048) sevens (List.replicate 32 0) ≠
    keyToMnemonic (List.range 2048) sevens (List.replicate 31 0 ++ [128]) := fun h =>
  absurd (C11_injective _ List.length_range List.nodup_range sevens sevens_length _ _ List.length_replicate (by decide) h)
    (by decide)

/-- A case of `C11_wrong_length`: 24 words. -/
example : mnemonicToKey (List.range 2048) sevens (List.replicate 24 0) = .err (.wrongMnemonicLen 24) :=
  C11_wrong_length _ _ _ (by decide)

/-- A case of `C11_unknown_word`: the fourth word is not on the list. -/
example : mnemonicToKey (List.range 2048) sevens ([5, 6, 7] ++ 2048 :: List.replicate 21 3000) = .err (.invalidWord 2048) :=
  C11_unknown_word _ _ _ _ _ (by decide) (by simp) (by simp)

/-- A case of `C11_wrong_checksum`: the mnemonic of the zero key with another last word. -/
example : mnemonicToKey (List.range 2048) sevens (List.replicate 24 0 ++ [1798]) = .err .wrongChecksum := by
  refine C11_wrong_checksum _ List.length_range List.nodup_range sevens sevens_length _ (by decide) ?_ ?_
  · intro w hw
    rcases List.mem_append.1 hw with h | h
    · rw [List.eq_of_mem_replicate h]; simp
    · rw [List.mem_singleton.1 h]; simp
  · rintro ⟨key, hk, h⟩
    have := h.chk
    rw [show sevens key = List.replicate 32 7 from rfl] at this
    simp at this

/-- A case of `C10_phrase_roundtrip`. -/
example : ∃ m, keyToMnemonic englishWords sevens (List.replicate 32 9) = .ok m ∧
    phraseToKey englishWords sevens (joinSp m) = .ok (List.replicate 32 9) :=
  C10_phrase_roundtrip sevens sevens_length _ List.length_replicate

end Verif.Props
