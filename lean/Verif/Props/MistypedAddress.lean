import Verif.Props.Address
/-!
# C186: mistyped addresses

Of the 58 characters of an address the first 51 and one bit of the next hold the address, the rest the
last four bytes of its hash. Stated for texts, addresses and bits of the hash.
-/

namespace Verif.Props
open Verif Verif.Address Verif.Base32

theorem symBits_take : ∀ (n : Nat) (s s' : Bytes) (l l' : List Bool), symBits s = some l → symBits s' = some l' →
    s.take n = s'.take n → l.take (5 * n) = l'.take (5 * n)
  | 0, _, _, _, _, _, _, _ => by simp
  | n + 1, [], [], l, l', h, h', _ => by rw [h] at h'; injection h' with h'; rw [h']
  | n + 1, [], c :: cs, _, _, _, _, e => by simp at e
  | n + 1, c :: cs, [], _, _, _, _, e => by simp at e
  | n + 1, c :: cs, c' :: cs', l, l', h, h', e => by
    simp only [List.take_succ_cons, List.cons.injEq] at e
    obtain ⟨rfl, e⟩ := e
    simp only [symBits] at h h'
    cases hv : symVal c with
    | none => simp [hv] at h
    | some v =>
      cases hs : symBits cs with
      | none => simp [hv, hs] at h
      | some r =>
        cases hs' : symBits cs' with
        | none => simp [hv, hs'] at h'
        | some r' =>
          simp only [hv, hs, hs', Option.some.injEq] at h h'
          subst h h'
          have ih := symBits_take n cs cs' r r' hs hs' e
          have e5 : 5 * (n + 1) = (Bits.natBits 5 v).length + 5 * n := by simp; omega
          rw [e5, List.take_length_add_append, List.take_length_add_append, ih]

theorem symBits_drop : ∀ (n : Nat) (s : Bytes) (l : List Bool), symBits s = some l →
    symBits (s.drop n) = some (l.drop (5 * n))
  | 0, _, _, h => by simpa using h
  | n + 1, [], l, h => by
    simp only [symBits, Option.some.injEq] at h
    subst h
    simp [symBits]
  | n + 1, c :: cs, l, h => by
    simp only [symBits] at h
    cases hv : symVal c with
    | none => simp [hv] at h
    | some v =>
      cases hs : symBits cs with
      | none => simp [hv, hs] at h
      | some r =>
        simp only [hv, hs, Option.some.injEq] at h
        subst h
        have e5 : 5 * (n + 1) = (Bits.natBits 5 v).length + 5 * n := by simp; omega
        rw [List.drop_succ_cons, symBits_drop n cs r hs, e5, List.drop_length_add_append]

theorem bytesToBits_append (a b : Bytes) : bytesToBits (a ++ b) = bytesToBits a ++ bytesToBits b := by
  simp [bytesToBits]

theorem bytesToBits_inj (a b : Bytes) (h : bytesToBits a = bytesToBits b) : a = b := by
  have h1 := dec8_bits a [] (by decide) rfl
  have h2 := dec8_bits b [] (by decide) rfl
  rw [h, h2] at h1
  injection h1 with h1
  exact h1.symm

/-- The bits of an accepted text: those of the address, of the last four bytes of its hash, and two zeros. -/
theorem text_bits (hash : Bytes → Bytes) (hh : ∀ x, (hash x).length = 32) (s a : Bytes) (h : fromStr hash s = .ok a) :
    a.length = 32 ∧ symBits s = some (bytesToBits a ++ (bytesToBits ((hash a).drop 28) ++ [false, false])) := by
  obtain ⟨ha, hd⟩ := C12_accepted_is_canonical hash hh s a h
  rw [display_ok hash hh a ha] at hd
  injection hd with hd
  refine ⟨ha, ?_⟩
  rw [← hd, encode, symBits_enc5, padded, addrPayload, bytesToBits_append, List.append_assoc]
  simp [ha, hh]

/-- C186: two accepted texts with the same first 52 characters are the same. -/
theorem C186_end (hash : Bytes → Bytes) (hh : ∀ x, (hash x).length = 32) (s s' a a' : Bytes)
    (h : fromStr hash s = .ok a) (h' : fromStr hash s' = .ok a') (ht : s.take 52 = s'.take 52) : s = s' := by
  obtain ⟨ha, hb⟩ := text_bits hash hh s a h
  obtain ⟨ha', hb'⟩ := text_bits hash hh s' a' h'
  have e := congrArg (List.take 256) (symBits_take 52 s s' _ _ hb hb' ht)
  rw [List.take_take, List.take_take, List.take_left' (by simp [ha]), List.take_left' (by simp [ha'])] at e
  obtain rfl := bytesToBits_inj a a' e
  have h1 := (C12_accepted_is_canonical hash hh s a h).2
  rw [(C12_accepted_is_canonical hash hh s' a h').2] at h1
  injection h1 with h1
  exact h1.symm

/-- C186: mistakes within the last six characters, however many, are answered with an error. -/
theorem C186_end_refused (hash : Bytes → Bytes) (hh : ∀ x, (hash x).length = 32) (s s' a : Bytes)
    (h : fromStr hash s = .ok a) (hl : s'.length = s.length) (ht : s'.take 52 = s.take 52) (hne : s' ≠ s) :
    ∃ e, fromStr hash s' = .err e := by
  have h58 : s.length = 58 := by
    obtain ⟨ha, hd⟩ := C12_accepted_is_canonical hash hh s a h
    obtain ⟨t, h1, h2, _⟩ := C12_roundtrip hash hh a ha
    rw [hd] at h1
    injection h1 with h1
    rw [h1, h2]
  cases hr : fromStr hash s' with
  | ok a' => exact absurd (C186_end hash hh s' s a' a hr h ht) hne
  | err e => exact ⟨e, rfl⟩
  | panic => exact absurd hr (C13_no_panic_right_length_partial hash hh s' (hl.trans h58))

/-- C186: two different accepted texts mean different addresses; when they end in the same six characters, the
hashes of the two addresses agree in their last 28 bits. -/
theorem C186_mistake (hash : Bytes → Bytes) (hh : ∀ x, (hash x).length = 32) (s s' a a' : Bytes)
    (h : fromStr hash s = .ok a) (h' : fromStr hash s' = .ok a') (hne : s ≠ s') :
    a ≠ a' ∧ (s.drop 52 = s'.drop 52 →
      (bytesToBits (hash a)).drop 228 = (bytesToBits (hash a')).drop 228) := by
  obtain ⟨ha, hb⟩ := text_bits hash hh s a h
  obtain ⟨ha', hb'⟩ := text_bits hash hh s' a' h'
  refine ⟨?_, fun e => ?_⟩
  · rintro rfl
    have h1 := (C12_accepted_is_canonical hash hh s a h).2
    rw [(C12_accepted_is_canonical hash hh s' a h').2] at h1
    injection h1 with h1
    exact hne h1.symm
  · have e1 := symBits_drop 52 s _ hb
    rw [e, symBits_drop 52 s' _ hb'] at e1
    injection e1 with e1
    have cut : ∀ x : Bytes, x.length = 32 → (bytesToBits x ++ (bytesToBits ((hash x).drop 28) ++ [false, false])).drop (5 * 52)
        = (bytesToBits (hash x)).drop 228 ++ [false, false] := by
      intro x hx
      have hsplit : bytesToBits (hash x) = bytesToBits ((hash x).take 28) ++ bytesToBits ((hash x).drop 28) := by
        rw [← bytesToBits_append, List.take_append_drop]
      rw [show 5 * 52 = (bytesToBits x).length + 4 by simp [hx], List.drop_length_add_append, hsplit,
        show 228 = (bytesToBits ((hash x).take 28)).length + 4 by simp [hh], List.drop_length_add_append,
        List.drop_append_of_le_length (by simp [hh])]
    rw [cut a ha, cut a' ha'] at e1
    exact (List.append_cancel_right e1).symm

/-- A hash for the cases below: the first byte of its argument, 32 times. -/
def firstByteHash (x : Bytes) : Bytes := List.replicate 32 (x.headD 0)

theorem firstByteHash_length (x : Bytes) : (firstByteHash x).length = 32 := List.length_replicate

/-- The texts of two addresses that differ in their last byte. -/
theorem two_texts : ∃ s s', fromStr firstByteHash s = .ok (List.replicate 32 9) ∧
    fromStr firstByteHash s' = .ok (List.replicate 31 9 ++ [8]) := by
  obtain ⟨s, _, _, h⟩ := C12_roundtrip firstByteHash firstByteHash_length (List.replicate 32 9) (by decide)
  obtain ⟨s', _, _, h'⟩ := C12_roundtrip firstByteHash firstByteHash_length (List.replicate 31 9 ++ [8]) (by decide)
  exact ⟨s, s', h, h'⟩

/-- A case of `C186_mistake`: two texts with the same last six characters, for a hash that looks at the first byte only. -/
example : ∃ s s', s ≠ s' ∧ s.drop 52 = s'.drop 52 ∧ fromStr firstByteHash s = .ok (List.replicate 32 9) ∧
    fromStr firstByteHash s' = .ok (List.replicate 31 9 ++ [8]) := by
  obtain ⟨s, hd, _, h⟩ := C12_roundtrip firstByteHash firstByteHash_length (List.replicate 32 9) (by decide)
  obtain ⟨s', hd', _, h'⟩ := C12_roundtrip firstByteHash firstByteHash_length (List.replicate 31 9 ++ [8]) (by decide)
  rw [display_ok _ firstByteHash_length _ (by decide)] at hd hd'
  injection hd with hd
  injection hd' with hd'
  subst hd hd'
  exact ⟨_, _, by decide +kernel, by decide +kernel, h, h'⟩

/-- A case of `C186_end`: the two texts differ within the first 52 characters. -/
example : ∃ s s', s.take 52 ≠ s'.take 52 ∧ fromStr firstByteHash s = .ok (List.replicate 32 9) ∧
    fromStr firstByteHash s' = .ok (List.replicate 31 9 ++ [8]) := by
  obtain ⟨s, s', h, h'⟩ := two_texts
  refine ⟨s, s', fun e => ?_, h, h'⟩
  have hs := C186_end _ firstByteHash_length s s' _ _ h h' e
  rw [hs, h'] at h
  exact absurd h (by decide)

/-- A case of `C186_end_refused`: the zero address, whose text consists of the letter A, with a last letter E. -/
example : ∃ e, fromStr firstByteHash (List.replicate 57 65 ++ [69]) = .err e := by
  obtain ⟨s, hd, _, h⟩ := C12_roundtrip firstByteHash firstByteHash_length (List.replicate 32 0) (by decide)
  have hs : s = List.replicate 58 65 := by
    rw [display_ok _ firstByteHash_length _ (by decide)] at hd
    injection hd with hd
    rw [← hd]
    decide +kernel
  subst hs
  exact C186_end_refused _ firstByteHash_length _ _ _ h (by decide) (by decide) (by decide)

end Verif.Props
