import Verif.Props.Mnemonic
import Mathlib.Tactic.Linarith
import Mathlib.Tactic.NormNum
/-!
# C185: mistyped phrases

What the checksum word is for: which of the lists that differ from a given mnemonic are
accepted. The specification is in terms of lists of words, of keys and of eleven bits of the hash.
-/

namespace Verif.Props
open Verif Verif.Mnemonic Verif.Digits

variable {W : Type} [DecidableEq W]

/-- The eleven bits of the hash of a key that the last word tells. -/
def elevenBits (hash : Bytes → Bytes) (key : Bytes) : Nat :=
  (((hash key).getD 0 0).toNat + 256 * ((hash key).getD 1 0).toNat) % 2048

theorem sameDigits (b : Nat) (hb : 0 < b) : ∀ n N M : Nat, N < b ^ n → M < b ^ n →
    (∀ i, i < n → N / b ^ i % b = M / b ^ i % b) → N = M
  | 0, N, M, hN, hM, _ => by simp at hN hM; omega
  | n + 1, N, M, hN, hM, h => by
    have h0 := h 0 (by omega)
    simp only [Nat.pow_zero, Nat.div_one] at h0
    have hd : N / b = M / b := by
      refine sameDigits b hb n _ _ (Nat.div_lt_of_lt_mul (by rwa [Nat.pow_succ, Nat.mul_comm] at hN))
        (Nat.div_lt_of_lt_mul (by rwa [Nat.pow_succ, Nat.mul_comm] at hM)) fun i hi => ?_
      have := h (i + 1) (by omega)
      rwa [Nat.pow_succ, Nat.mul_comm, ← Nat.div_div_eq_div_mul, ← Nat.div_div_eq_div_mul] at this
    rw [← Nat.div_add_mod N b, ← Nat.div_add_mod M b, hd, h0]

theorem leNumber_lt : ∀ bs : Bytes, leNumber bs < 256 ^ bs.length
  | [] => by simp [leNumber]
  | b :: bs => by
    have ih := leNumber_lt bs
    have hb : b.toNat < 256 := b.toNat_lt
    have e : leNumber (b :: bs) = b.toNat + 256 * leNumber bs := rfl
    rw [e, List.length_cons, Nat.pow_succ]
    generalize 256 ^ bs.length = p at ih ⊢
    omega

theorem leNumber_inj32 (k k' : Bytes) (h : k.length = k'.length) (e : leNumber k = leNumber k') : k = k' := by
  rw [leNumber_eq, leNumber_eq] at e
  exact nums_inj _ _ (val_inj 256 _ _ (by simpa [nums] using h) (nums_lt _) (nums_lt _) e)

omit [DecidableEq W] in
theorem sameWord {words : List W} (hn : words.Nodup) {a b : Nat} (ha : a < words.length)
    (h : words[a]? = words[b]?) : a = b :=
  (List.getElem?_inj ha hn).1 h

omit [DecidableEq W] in
/-- The first 24 words determine the key. -/
theorem key_of_words (words : List W) (hw : words.length = 2048) (hn : words.Nodup) (hash : Bytes → Bytes)
    (m m' : List W) (key key' : Bytes) (hk : key.length = 32) (hk' : key'.length = 32)
    (h : IsMnemonicOf words hash key m) (h' : IsMnemonicOf words hash key' m') (ht : m.take 24 = m'.take 24) :
    key = key' := by
  have bound : ∀ k : Bytes, k.length = 32 → leNumber k < 2048 ^ 24 := fun k e => by
    have := leNumber_lt k
    rw [e] at this
    exact Nat.lt_trans this (by norm_num)
  refine leNumber_inj32 _ _ (hk.trans hk'.symm) (sameDigits 2048 (by decide) 24 _ _ (bound _ hk) (bound _ hk')
    fun i hi => ?_)
  have e : m[i]? = m'[i]? := by
    have := congrArg (fun l => l[i]?) ht
    simpa [List.getElem?_take, hi] using this
  rw [h.data i hi, h'.data i hi] at e
  exact sameWord hn (by rw [hw]; exact Nat.mod_lt _ (by decide)) e

/-- C185: two accepted lists with the same first 24 words are the same. -/
theorem C185_last_word (words : List W) (hw : words.length = 2048) (hn : words.Nodup)
    (hash : Bytes → Bytes) (hh : ∀ x, (hash x).length = 32) (m m' : List W) (key key' : Bytes)
    (h : mnemonicToKey words hash m = .ok key) (h' : mnemonicToKey words hash m' = .ok key')
    (ht : m.take 24 = m'.take 24) : m = m' := by
  obtain ⟨hk, hm⟩ := (C11_accepts_iff words hw hn hash hh m key).1 h
  obtain ⟨hk', hm'⟩ := (C11_accepts_iff words hw hn hash hh m' key').1 h'
  obtain rfl := key_of_words words hw hn hash m m' key key' hk hk' hm hm' ht
  exact isMnemonicOf_unique words hash key m m' hm hm'

/-- C185: with another last word of the list in place of the right one, a mnemonic is refused for its checksum. -/
theorem C185_last_word_refused (words : List W) (hw : words.length = 2048) (hn : words.Nodup)
    (hash : Bytes → Bytes) (hh : ∀ x, (hash x).length = 32) (pre : List W) (w w' : W) (key : Bytes)
    (h : mnemonicToKey words hash (pre ++ [w]) = .ok key) (hne : w' ≠ w) (hmem : w' ∈ words) :
    mnemonicToKey words hash (pre ++ [w']) = .err .wrongChecksum := by
  obtain ⟨hk, hm⟩ := (C11_accepts_iff words hw hn hash hh _ key).1 h
  have hl : pre.length = 24 := by simpa using hm.len
  obtain ⟨m₀, h0, _, hin⟩ := C10_key_to_mnemonic_spec words hw hash hh key hk
  rw [C11_accepted_is_canonical words hw hn hash hh _ key h] at h0
  injection h0 with h0
  subst h0
  refine C11_wrong_checksum words hw hn hash hh _ (by simp [hl]) ?_ ?_
  · intro x hx
    rcases List.mem_append.1 hx with hx | hx
    · exact hin x (List.mem_append_left _ hx)
    · rw [List.mem_singleton.1 hx]; exact hmem
  · rintro ⟨key', hk', hm'⟩
    have := C185_last_word words hw hn hash hh _ _ key key' h
      ((C11_accepts_iff words hw hn hash hh _ key').2 ⟨hk', hm'⟩) (by rw [← hl, List.take_left, List.take_left])
    exact hne (by simpa using this.symm)

/-- C185: two different accepted lists have different keys; when they end in the same word, the hashes of the two
keys agree in eleven bits. So a mistake among the first 24 words, of whatever kind, goes unnoticed only
when eleven bits of the hashes of two different keys happen to agree. -/
theorem C185_mistake (words : List W) (hw : words.length = 2048) (hn : words.Nodup)
    (hash : Bytes → Bytes) (hh : ∀ x, (hash x).length = 32) (m m' : List W) (key key' : Bytes)
    (h : mnemonicToKey words hash m = .ok key) (h' : mnemonicToKey words hash m' = .ok key') (hne : m ≠ m') :
    key ≠ key' ∧ (m[24]? = m'[24]? ↔ elevenBits hash key = elevenBits hash key') := by
  obtain ⟨hk, hm⟩ := (C11_accepts_iff words hw hn hash hh m key).1 h
  obtain ⟨hk', hm'⟩ := (C11_accepts_iff words hw hn hash hh m' key').1 h'
  refine ⟨fun e => hne ?_, ?_⟩
  · subst e; exact isMnemonicOf_unique words hash key m m' hm hm'
  · rw [hm.chk, hm'.chk]
    exact ⟨sameWord hn (by rw [hw]; exact Nat.mod_lt _ (by decide)), fun e => congrArg (fun i => words[i]?) e⟩

/-- C185: in place 24 only the first eight words of the list are accepted, because 24 words hold eight bits more than a key. -/
theorem C185_place (words : List W) (hw : words.length = 2048) (hn : words.Nodup)
    (hash : Bytes → Bytes) (hh : ∀ x, (hash x).length = 32) (m : List W) (key : Bytes)
    (h : mnemonicToKey words hash m = .ok key) : ∃ j, j < 8 ∧ m[23]? = words[j]? := by
  obtain ⟨hk, hm⟩ := (C11_accepts_iff words hw hn hash hh m key).1 h
  have hlt := leNumber_lt key
  rw [hk] at hlt
  refine ⟨leNumber key / 2048 ^ 23 % 2048, ?_, hm.data 23 (by decide)⟩
  have : leNumber key / 2048 ^ 23 < 8 := Nat.div_lt_of_lt_mul (Nat.lt_of_lt_of_eq hlt (by norm_num))
  exact Nat.lt_of_le_of_lt (Nat.mod_le _ _) this

theorem completion_of_numbers (words : List W) (hw : words.length = 2048) (hn : words.Nodup)
    (hash : Bytes → Bytes) (hh : ∀ x, (hash x).length = 32) (ps : List Nat) (hps : ∀ p ∈ ps, p < 2048)
    (hl : ps.length = 23) (j : Nat) (hj : j < 8) (pre : List W)
    (hpre : pre.length = 24 ∧ ∀ i : Nat, pre[i]? = ((ps ++ [j])[i]?).bind (fun p => words[p]?)) :
    ∃! w, ∃ key, mnemonicToKey words hash (pre ++ [w]) = .ok key := by
  have hlt : ∀ d ∈ ps ++ [j], d < 2048 := by
    intro d hd
    rcases List.mem_append.1 hd with hd | hd
    · exact hps d hd
    · rw [List.mem_singleton.1 hd]; omega
  obtain ⟨hbl, hbv⟩ := toBase8_spec (ps ++ [j]) hlt 33 (by simp [hl])
  have hsmall : val 2048 (ps ++ [j]) < 256 ^ 32 := by
    have h1 : val 2048 ps < 2048 ^ ps.length := val_lt 2048 ps hps
    rw [hl] at h1
    rw [val_append, hl]
    simp only [val]
    have e : (256 : Nat) ^ 32 = 2048 ^ 23 * 8 := by norm_num
    rw [e]
    generalize (2048 : Nat) ^ 23 = p at h1 ⊢
    nlinarith
  obtain ⟨key, b, hkb⟩ : ∃ key b, toBase8 (ps ++ [j]) = key ++ [b] := by
    have hne : toBase8 (ps ++ [j]) ≠ [] := by intro e; rw [e] at hbl; simp at hbl
    exact ⟨_, _, (List.dropLast_append_getLast hne).symm⟩
  have hk : key.length = 32 := by rw [hkb] at hbl; simpa using hbl
  have hval : leNumber key = val 2048 (ps ++ [j]) := by
    rw [hkb, ← leNumber_eq] at hbv
    have e : leNumber (key ++ [b]) = leNumber key + 256 ^ 32 * b.toNat := by
      rw [leNumber_eq, leNumber_eq, nums_append, val_append]; simp [nums, hk, val]
    rw [e] at hbv
    have hb0 : b.toNat = 0 := by
      rcases Nat.eq_zero_or_pos b.toNat with h | h
      · exact h
      · exfalso
        rw [← hbv] at hsmall
        generalize (256 : Nat) ^ 32 = p at hsmall
        nlinarith
    rw [hb0] at hbv
    simpa using hbv
  have hc : elevenBits hash key < words.length := by rw [hw]; exact Nat.mod_lt _ (by decide)
  have hm : IsMnemonicOf words hash key (pre ++ [words[elevenBits hash key]]) := by
    refine ⟨by simp [hpre.1], fun i hi => ?_, ?_⟩
    · rw [List.getElem?_append_left (by omega), hpre.2 i, getElem?_eq_digit 2048 _ hlt i (by simp [hl]; omega), hval]
      rfl
    · rw [List.getElem?_append_right (by omega), hpre.1]
      exact (List.getElem?_eq_getElem hc).symm
  have hok := (C11_accepts_iff words hw hn hash hh _ key).2 ⟨hk, hm⟩
  refine ⟨_, ⟨key, hok⟩, ?_⟩
  rintro w' ⟨key', h'⟩
  have := C185_last_word words hw hn hash hh _ _ key' key h' hok
    (by rw [← hpre.1, List.take_left, List.take_left])
  simpa using this

/-- C185: and whatever the first 23 words are, with one of these eight in place 24 exactly one last word is accepted. -/
theorem C185_completion (words : List W) (hw : words.length = 2048) (hn : words.Nodup)
    (hash : Bytes → Bytes) (hh : ∀ x, (hash x).length = 32) (pre : List W) (hl : pre.length = 24)
    (hin : ∀ w ∈ pre, w ∈ words) (j : Nat) (hj : j < 8) (h23 : pre[23]? = words[j]?) :
    ∃! w, ∃ key, mnemonicToKey words hash (pre ++ [w]) = .ok key := by
  have hat : ∀ w ∈ words, words[words.idxOf w]? = some w := fun w h => by
    rw [List.getElem?_eq_getElem (List.idxOf_lt_length_of_mem h), List.getElem_idxOf]
  have hjl : j < words.length := by omega
  obtain ⟨init, x, rfl⟩ : ∃ init x, pre = init ++ [x] := by
    have hne : pre ≠ [] := by intro e; rw [e] at hl; simp at hl
    exact ⟨_, _, (List.dropLast_append_getLast hne).symm⟩
  have hil : init.length = 23 := by simpa using hl
  have hx : some x = words[j]? := by rw [← h23, List.getElem?_append_right (by omega), hil]; rfl
  refine completion_of_numbers words hw hn hash hh (init.map words.idxOf) ?_ (by simp [hil]) j hj _ ⟨hl, fun i => ?_⟩
  · intro p hp
    obtain ⟨w, hwi, rfl⟩ := List.mem_map.1 hp
    rw [← hw]
    exact List.idxOf_lt_length_of_mem (hin w (List.mem_append_left _ hwi))
  · rcases Nat.lt_trichotomy i 23 with hi | rfl | hi
    · rw [List.getElem?_append_left (by omega), List.getElem?_append_left (by simp [hil]; omega), List.getElem?_map,
        List.getElem?_eq_getElem (by omega)]
      exact (hat _ (hin _ (List.mem_append_left _ (List.getElem_mem _)))).symm
    · rw [List.getElem?_append_right (by omega), List.getElem?_append_right (by simp [hil])]
      simp only [hil, List.length_map, Nat.sub_self, List.getElem?_cons_zero, Option.bind_some]
      exact hx
    · rw [List.getElem?_eq_none (by simp [hil]; omega), List.getElem?_eq_none (by simp [hil]; omega)]
      rfl

/-- The mnemonic of the key with all bytes 0, as in `zeroKey_mnemonic`, is accepted. -/
theorem zeroKey_accepted : mnemonicToKey (List.range 2048) sevens (List.replicate 24 0 ++ [1799]) = .ok (List.replicate 32 0) :=
  (C11_accepts_iff (List.range 2048) List.length_range List.nodup_range sevens sevens_length _ _).2
    ⟨List.length_replicate, zeroKey_mnemonic⟩

/-- The mnemonic of the key that begins with byte 1: the first word is number 1. -/
theorem oneKey_accepted : mnemonicToKey (List.range 2048) sevens (1 :: List.replicate 23 0 ++ [1799]) =
    .ok (1 :: List.replicate 31 0) :=
  (C11_accepts_iff (List.range 2048) List.length_range List.nodup_range sevens sevens_length _ _).2
    ⟨by decide, ⟨rfl, by decide +kernel, by decide +kernel⟩⟩

/-- A case of `C185_last_word_refused`: the neighbour of the right last word. -/
example : mnemonicToKey (List.range 2048) sevens (List.replicate 24 0 ++ [1798]) = .err .wrongChecksum :=
  C185_last_word_refused _ List.length_range List.nodup_range sevens sevens_length _ 1799 1798 _ zeroKey_accepted
    (by decide) (by simp)

/-- A case of `C185_last_word`: what follows the 24 words of the zero key. -/
example (w : Nat) (key : Bytes) (h : mnemonicToKey (List.range 2048) sevens (List.replicate 24 0 ++ [w]) = .ok key) :
    List.replicate 24 0 ++ [1799] = List.replicate 24 0 ++ [w] :=
  C185_last_word _ List.length_range List.nodup_range sevens sevens_length _ _ _ _ zeroKey_accepted h rfl

/-- A case of `C185_mistake`: the hash `sevens` takes the same value everywhere, so that a wrong first word goes unnoticed. -/
example : (List.replicate 32 0 : Bytes) ≠ 1 :: List.replicate 31 0 ∧
    elevenBits sevens (List.replicate 32 0) = elevenBits sevens (1 :: List.replicate 31 0) := by
  obtain ⟨h1, h2⟩ := C185_mistake _ List.length_range List.nodup_range sevens sevens_length _ _ _ _ zeroKey_accepted
    oneKey_accepted (by decide)
  exact ⟨h1, h2.1 rfl⟩

/-- A case of `C185_place`. -/
example : ∃ j, j < 8 ∧ (1 :: List.replicate 23 0 ++ [1799])[23]? = (List.range 2048)[j]? :=
  C185_place _ List.length_range List.nodup_range sevens sevens_length _ _ oneKey_accepted

/-- A case of `C185_completion`: 23 words with number 2047 and then the word with number 7. -/
example : ∃! w, ∃ key, mnemonicToKey (List.range 2048) sevens (List.replicate 23 2047 ++ [7] ++ [w]) = .ok key :=
  C185_completion _ List.length_range List.nodup_range sevens sevens_length _ (by decide)
    (by intro w h
        rcases List.mem_append.1 h with h | h
        · rw [List.eq_of_mem_replicate h]; simp
        · rw [List.mem_singleton.1 h]; simp) 7 (by decide) (by simp)

end Verif.Props
