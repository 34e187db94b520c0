import Verif.Model.Address
import Verif.Lemmas.Base32
/-!
# C12, C13, C15: text forms of addresses and hashes
-/

namespace Verif.Props
open Verif Verif.Address

/-- The base32 model agrees with the RFC 4648 test vector `foobar`. -/
example : Base32.encode [102, 111, 111, 98, 97, 114] = [77, 90, 88, 87, 54, 89, 84, 66, 79, 73] := by
  decide +kernel

/-- The payload of the text form of an address: the address and the last four hash bytes. -/
def addrPayload (hash : Bytes → Bytes) (a : Bytes) : Bytes := a ++ (hash a).drop 28

theorem checksum_ok' {ε : Type} (hash : Bytes → Bytes) (hh : ∀ x, (hash x).length = 32) (a : Bytes) :
    (checksum hash a : Res ε Bytes) = .ok ((hash a).drop 28) := by
  simp [checksum, hh]

theorem display_ok {ε : Type} (hash : Bytes → Bytes) (hh : ∀ x, (hash x).length = 32) (a : Bytes)
    (ha : a.length = 32) :
    (display hash a : Res ε Bytes) = .ok (Base32.encode (addrPayload hash a)) := by
  simp [display, ha, checksum_ok' hash hh, addrPayload]

/-- Complete description of `from_str`. -/
theorem fromStr_eq (hash : Bytes → Bytes) (hh : ∀ x, (hash x).length = 32) (s : Bytes) :
    fromStr hash s =
      match Base32.decode s with
      | none => .err .invalidBase32
      | some d =>
        if d.length < 32 then .err .wrongLength
        else if d.drop (d.length - 4) ≠ (hash (d.take 32)).drop 28 then .err .invalidChecksum
        else if d.length = 36 then .ok (d.take 32) else .panic := by
  rw [fromStr]
  cases hd : Base32.decode s with
  | none => rfl
  | some d =>
    simp only
    split
    · rfl
    rename_i hl
    have hs : s = Base32.encode d := (Base32.encode_decode s d hd).symm
    have ht : (d.take 32).length = 32 := by rw [List.length_take]; omega
    simp only [checksum_ok' hash hh, Res.ok_bind, display_ok hash hh _ ht]
    by_cases hc : d.drop (d.length - 4) = (hash (d.take 32)).drop 28
    · simp only [hc, ne_eq, not_true_eq_false, if_false]
      by_cases h36 : d.length = 36
      · have : addrPayload hash (d.take 32) = d := by
          rw [addrPayload, ← hc, h36, List.take_append_drop]
        rw [if_pos h36, this, hs]; simp
      · have : Base32.encode (addrPayload hash (d.take 32)) ≠ s := by
          rw [hs]; intro e
          have := congrArg List.length (Base32.encode_injective _ _ e)
          simp only [addrPayload, List.length_append, ht, List.length_drop, hh] at this
          omega
        rw [if_neg h36, if_pos this]
    · simp [hc]

/-- C12: what is printed parses back to the address. -/
theorem C12_roundtrip (hash : Bytes → Bytes) (hh : ∀ x, (hash x).length = 32) (a : Bytes)
    (ha : a.length = 32) :
    ∃ s, (display hash a : Res AddressError Bytes) = .ok s ∧ s.length = 58 ∧
      fromStr hash s = .ok a := by
  refine ⟨_, display_ok hash hh a ha, ?_, ?_⟩
  · rw [Base32.encode_length]; simp [addrPayload, ha, hh]
  · have hlen : (addrPayload hash a).length = 36 := by simp [addrPayload, ha, hh]
    have ht : (addrPayload hash a).take 32 = a := by
      rw [addrPayload, List.take_append_of_le_length (by omega), List.take_of_length_le (by omega)]
    have hdr : (addrPayload hash a).drop 32 = (hash a).drop 28 := by
      rw [addrPayload, List.drop_append_of_le_length (by omega), List.drop_eq_nil_iff.2 (by omega)]
      rfl
    rw [fromStr_eq hash hh, Base32.decode_encode]
    simp only [hlen, ht, hdr]
    simp

/-- C12: every accepted string is the printed form of the returned 32-byte address. -/
theorem C12_accepted_is_canonical (hash : Bytes → Bytes) (hh : ∀ x, (hash x).length = 32)
    (s a : Bytes) (h : fromStr hash s = .ok a) :
    a.length = 32 ∧ (display hash a : Res AddressError Bytes) = .ok s := by
  rw [fromStr_eq hash hh] at h
  cases hd : Base32.decode s with
  | none => simp [hd] at h
  | some d =>
    simp only [hd] at h
    split at h
    · cases h
    rename_i hl
    split at h
    · cases h
    rename_i hc
    rw [ne_eq, Decidable.not_not] at hc
    split at h
    · rename_i h36
      injection h with h
      have ht : a.length = 32 := by rw [← h, List.length_take]; omega
      refine ⟨ht, ?_⟩
      rw [display_ok hash hh a ht, ← Base32.encode_decode s d hd]
      congr 2
      rw [addrPayload, ← h, ← hc, h36, List.take_append_drop]
    · cases h

/-- C12: distinct addresses print differently. -/
theorem C12_display_injective (hash : Bytes → Bytes) (hh : ∀ x, (hash x).length = 32) (a b : Bytes)
    (ha : a.length = 32) (hb : b.length = 32)
    (h : (display hash a : Res AddressError Bytes) = display hash b) : a = b := by
  obtain ⟨s, h1, _, h2⟩ := C12_roundtrip hash hh a ha
  obtain ⟨s', h1', _, h2'⟩ := C12_roundtrip hash hh b hb
  rw [h1, h1'] at h
  injection h with h; subst h
  rw [h2] at h2'; injection h2'

/-- C13 is violated: for every hash function and every address the base32 form of the address,
one zero byte and the checksum makes the parser hit `unreachable!`. -/
theorem C13_parser_panics (hash : Bytes → Bytes) (hh : ∀ x, (hash x).length = 32) (a : Bytes)
    (ha : a.length = 32) :
    fromStr hash (Base32.encode (a ++ [0] ++ (hash a).drop 28)) = .panic := by
  have hlen : (a ++ [0] ++ (hash a).drop 28).length = 37 := by simp [ha, hh]
  have ht : (a ++ [0] ++ (hash a).drop 28).take 32 = a := by
    rw [List.append_assoc, List.take_append_of_le_length (by omega),
      List.take_of_length_le (by omega)]
  have hdr : (a ++ [0] ++ (hash a).drop 28).drop 33 = (hash a).drop 28 := by
    rw [List.drop_append_of_le_length (by simp [ha]), List.drop_eq_nil_iff.2 (by simp [ha])]
    rfl
  rw [fromStr_eq hash hh, Base32.decode_encode]
  simp only [hlen, ht, hdr]
  simp

/-- C13, exact set of crashing inputs: canonical base32 of at least 32 bytes but not 36, whose last
four bytes happen to be the checksum of the first 32. -/
theorem C13_panics_iff_partial (hash : Bytes → Bytes) (hh : ∀ x, (hash x).length = 32) (s : Bytes) :
    fromStr hash s = .panic ↔
      ∃ d, Base32.decode s = some d ∧ 32 ≤ d.length ∧ d.length ≠ 36 ∧
        d.drop (d.length - 4) = (hash (d.take 32)).drop 28 := by
  rw [fromStr_eq hash hh]
  cases hd : Base32.decode s with
  | none => simp
  | some d =>
    simp only [Option.some.injEq, exists_eq_left']
    constructor
    · intro h
      split at h
      · cases h
      split at h
      · cases h
      split at h
      · cases h
      · rename_i h1 h2 h3
        exact ⟨by omega, h3, Decidable.not_not.1 h2⟩
    · rintro ⟨h1, h2, h3⟩
      rw [if_neg (by omega), if_neg (by simp [h3]), if_neg h2]

/-- C13, the part that holds: no string of the right length (58 characters) crashes the parser. -/
theorem C13_no_panic_right_length_partial (hash : Bytes → Bytes) (hh : ∀ x, (hash x).length = 32)
    (s : Bytes) (hs : s.length = 58) : fromStr hash s ≠ .panic := by
  intro h
  obtain ⟨d, h1, h2, h3, _⟩ := (C13_panics_iff_partial hash hh s).1 h
  have := Base32.encode_length d
  rw [Base32.encode_decode s d h1, hs] at this
  omega

/-- C15: printed hashes parse back and have 52 characters. -/
theorem C15_roundtrip (h : Bytes) (hl : h.length = 32) :
    hashFromStr (hashDisplay h) = .ok h ∧ (hashDisplay h).length = 52 := by
  refine ⟨?_, ?_⟩
  · simp [hashFromStr, hashDisplay, Base32.decode_encode, hl]
  · simp [hashDisplay, Base32.encode_length, hl]

/-- C15: only printed forms of 32-byte values parse. -/
theorem C15_accepts_iff (s h : Bytes) :
    hashFromStr s = .ok h ↔ h.length = 32 ∧ s = hashDisplay h := by
  constructor
  · intro e
    rw [hashFromStr] at e
    cases hd : Base32.decode s with
    | none => simp [hd] at e
    | some d =>
      simp only [hd] at e
      split at e
      · cases e
      · rename_i hl
        injection e with e; subst e
        exact ⟨Decidable.not_not.1 hl, (Base32.encode_decode s d hd).symm⟩
  · rintro ⟨h1, rfl⟩; exact (C15_roundtrip h h1).1

/-- C15: the parser never panics; the error tells the decoded length. -/
theorem C15_errors (s : Bytes) :
    (Base32.decode s = none ∧ hashFromStr s = .err .invalidBase32) ∨
    (∃ d, Base32.decode s = some d ∧ d.length ≠ 32 ∧ hashFromStr s = .err (.wrongLength d.length)) ∨
    (∃ d, Base32.decode s = some d ∧ d.length = 32 ∧ hashFromStr s = .ok d) := by
  rw [hashFromStr]
  cases hd : Base32.decode s with
  | none => simp
  | some d =>
    by_cases h : d.length = 32 <;> simp [h]

/-- Base32 is canonical: two different texts never decode to the same bytes, and every byte string
has a text (used by both text forms). -/
theorem C15_base32_bijective (s t b : Bytes) :
    Base32.decode (Base32.encode b) = some b ∧
      (Base32.decode s = some b → Base32.decode t = some b → s = t) := by
  refine ⟨Base32.decode_encode b, fun h1 h2 => ?_⟩
  rw [← Base32.encode_decode s b h1, ← Base32.encode_decode t b h2]

/-- Little-endian value of a byte string: digit `k` and the bound. -/
theorem le_value (l : Bytes) :
    l.foldr (fun b acc => b.toNat + 256 * acc) 0 < 256 ^ l.length ∧
      ∀ k, l.foldr (fun b acc => b.toNat + 256 * acc) 0 / 256 ^ k % 256 = (l.getD k 0).toNat := by
  induction l with
  | nil => simp
  | cons b l ih =>
    have hb := b.toNat_lt
    simp only [List.foldr_cons, List.length_cons]
    generalize l.foldr (fun b acc => b.toNat + 256 * acc) 0 = v at ih
    refine ⟨by rw [Nat.pow_succ]; omega, fun k => ?_⟩
    cases k with
    | zero => simp
    | succ k =>
      have : (b.toNat + 256 * v) / 256 = v := by omega
      rw [Nat.pow_succ, Nat.mul_comm (256 ^ k), ← Nat.div_div_eq_div_mul, this, ih.2 k]
      rfl

/-- C99: trimming a 32-byte hash to 64 bits succeeds, and byte `k` of the number (in base 256,
least significant first) is byte `k` of the hash, for each of the eight positions. -/
theorem C99_trim_bytes (h : Bytes) (hl : h.length = 32) :
    ∃ v, trimToU64 (ε := Empty) h = .ok v ∧ v < u64Lim ∧
      ∀ k, k < 8 → v / 256 ^ k % 256 = (h.getD k 0).toNat := by
  have hlen : 8 ≤ h.length := by omega
  have hlv := le_value (h.take 8)
  have ht : (h.take 8).length = 8 := by simp [hl]
  refine ⟨_, if_pos hlen, ?_, fun k hk => ?_⟩
  · rw [ht] at hlv; exact hlv.1
  · rw [hlv.2 k, List.getD_eq_getElem?_getD, List.getD_eq_getElem?_getD, List.getElem?_take,
      if_pos hk]

/-- C99: two 32-byte hashes are trimmed to the same number exactly when their first eight bytes
agree; the other bytes do not matter. -/
theorem C99_trim_prefix (h₁ h₂ : Bytes) (l₁ : h₁.length = 32) (l₂ : h₂.length = 32) :
    trimToU64 (ε := Empty) h₁ = trimToU64 h₂ ↔ h₁.take 8 = h₂.take 8 := by
  constructor
  · intro he
    obtain ⟨v₁, e₁, -, s₁⟩ := C99_trim_bytes h₁ l₁
    obtain ⟨v₂, e₂, -, s₂⟩ := C99_trim_bytes h₂ l₂
    rw [e₁, e₂] at he
    cases he
    apply List.ext_getElem (by simp [l₁, l₂])
    intro k hk _
    have hk8 : k < 8 := by simp at hk; omega
    have := (s₁ k hk8).symm.trans (s₂ k hk8)
    have := UInt8.toNat_inj.mp this
    rw [List.getElem_take, List.getElem_take]
    rw [List.getD_eq_getElem?_getD, List.getD_eq_getElem?_getD,
      List.getElem?_eq_getElem (by omega), List.getElem?_eq_getElem (by omega)] at this
    exact this
  · intro he
    have a₁ : 8 ≤ h₁.length := by omega
    have a₂ : 8 ≤ h₂.length := by omega
    unfold trimToU64
    rw [if_pos a₁, if_pos a₂, he]

/-- The digest of the crate's own unit test starts `3d 37 fe 58 43 5e 0d 87`. -/
example : trimToU64 (ε := Empty)
    ([0x3d, 0x37, 0xfe, 0x58, 0x43, 0x5e, 0x0d, 0x87] ++ List.replicate 24 7) =
      .ok 0x870d5e4358fe373d := by decide

/-- C99: a hash is zero exactly when every byte is zero. -/
theorem C99_is_zero (h : Bytes) (hl : h.length = 32) :
    Address.isZero h = true ↔ ∀ b ∈ h, b = 0 := by
  unfold Address.isZero
  rw [beq_iff_eq, List.eq_replicate_iff]
  simp [hl]

example : Address.isZero (List.replicate 31 0 ++ [1]) = false := by decide

/-- The hypotheses of the address theorems hold for a concrete hash and address. -/
example : (∀ x : Bytes, (List.replicate 32 (UInt8.ofNat x.length)).length = 32) ∧
    (List.replicate 31 5 ++ [9] : Bytes).length = 32 := by simp

/-! ## Cases -/

/-- A hash for the cases: the length of the text, 32 times. -/
def lenHash (x : Bytes) : Bytes := List.replicate 32 (UInt8.ofNat x.length)

theorem lenHash_length (x : Bytes) : (lenHash x).length = 32 := List.length_replicate

/-- A case of `C12_roundtrip` and `C12_accepted_is_canonical`. -/
example : ∃ s, (display lenHash (List.replicate 31 5 ++ [9]) : Res AddressError Bytes) = .ok s ∧ s.length = 58 ∧
    fromStr lenHash s = .ok (List.replicate 31 5 ++ [9]) :=
  C12_roundtrip lenHash lenHash_length _ (by decide)

/-- A case of `C12_display_injective`: addresses that differ in the last bit. -/
example : (display lenHash (List.replicate 31 5 ++ [9]) : Res AddressError Bytes) ≠ display lenHash (List.replicate 31 5 ++ [8]) :=
  fun h => absurd (C12_display_injective lenHash lenHash_length _ _ (by decide) (by decide) h) (by decide)

/-- A case of `C13_parser_panics` and `C13_panics_iff_partial`: a crashing text of 60 characters. -/
example : fromStr lenHash (Base32.encode (List.replicate 32 5 ++ [0] ++ (lenHash (List.replicate 32 5)).drop 28)) = .panic ∧
    ∃ d, Base32.decode (Base32.encode (List.replicate 32 5 ++ [0] ++ (lenHash (List.replicate 32 5)).drop 28)) = some d ∧
      32 ≤ d.length ∧ d.length ≠ 36 ∧ d.drop (d.length - 4) = (lenHash (d.take 32)).drop 28 := by
  have h := C13_parser_panics lenHash lenHash_length (List.replicate 32 5) (by decide)
  exact ⟨h, (C13_panics_iff_partial lenHash lenHash_length _).1 h⟩

/-- A case of `C13_no_panic_right_length_partial`: 58 letters A. -/
example : fromStr lenHash (List.replicate 58 65) ≠ .panic :=
  C13_no_panic_right_length_partial lenHash lenHash_length _ (by decide)

/-- A case of `C15_roundtrip`. -/
example : hashFromStr (hashDisplay (List.replicate 31 200 ++ [1])) = .ok (List.replicate 31 200 ++ [1]) :=
  (C15_roundtrip _ (by decide)).1

/-- A case of `C99_trim_bytes`: only the first eight bytes count. -/
example : ∃ v, trimToU64 (ε := Empty) (List.replicate 8 1 ++ List.replicate 24 255) = .ok v ∧ v < u64Lim := by
  obtain ⟨v, h1, h2, _⟩ := C99_trim_bytes (List.replicate 8 1 ++ List.replicate 24 255) (by decide)
  exact ⟨v, h1, h2⟩

end Verif.Props
