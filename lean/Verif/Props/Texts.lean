import Verif.Model.Texts
import Verif.Props.Messages
import Verif.Props.Address
/-!
# Printed values can be read back (C150)
-/

namespace Verif.Props
open Verif Verif.Texts Verif.Messages

/-! ## Base64 -/

/-- The value of a Base64 symbol (RFC 4648, table 1). -/
def b64Val (c : UInt8) : Option Nat :=
  if 65 ≤ c.toNat ∧ c.toNat ≤ 90 then some (c.toNat - 65)
  else if 97 ≤ c.toNat ∧ c.toNat ≤ 122 then some (c.toNat - 97 + 26)
  else if 48 ≤ c.toNat ∧ c.toNat ≤ 57 then some (c.toNat - 48 + 52)
  else if c = 43 then some 62 else if c = 47 then some 63 else none

theorem b64_table : ∀ v : Fin 64, b64Val (b64Sym v.val) = some v.val := by decide +kernel

theorem b64Val_sym (v : Nat) (h : v < 64) : b64Val (b64Sym v) = some v := b64_table ⟨v, h⟩

/-- A reader of Base64 text, after RFC 4648: each group of four symbols is 24 bits, a group that ends with one `=` is
two bytes and one that ends with two is one byte. -/
def readBase64 : Bytes → Option Bytes
  | [] => some []
  | p :: q :: r :: s :: t =>
    if t = [] ∧ s = 61 ∧ r = 61 then
      do
        let x ← b64Val p
        let y ← b64Val q
        some [UInt8.ofNat (x * 4 + y / 16)]
    else if t = [] ∧ s = 61 then
      do
        let x ← b64Val p
        let y ← b64Val q
        let z ← b64Val r
        some [UInt8.ofNat (x * 4 + y / 16), UInt8.ofNat (y % 16 * 16 + z / 4)]
    else
      do
        let x ← b64Val p
        let y ← b64Val q
        let z ← b64Val r
        let w ← b64Val s
        let rest ← readBase64 t
        some (UInt8.ofNat (x * 4 + y / 16) :: UInt8.ofNat (y % 16 * 16 + z / 4) :: UInt8.ofNat (z % 4 * 64 + w) :: rest)
  | _ => none

theorem b64_pad (v : Nat) (h : v < 64) : b64Sym v ≠ 61 := by
  intro he
  have := b64Val_sym v h
  rw [he] at this
  exact absurd this (by simp [b64Val])

theorem ofNat_eq (a : UInt8) (n : Nat) (h : n = a.toNat) : UInt8.ofNat n = a := by
  rw [h]; exact UInt8.ofNat_toNat

/-- C150: Base64 text is read back. -/
theorem C150_base64 : ∀ b : Bytes, readBase64 (base64 b) = some b
  | [] => rfl
  | [a] => by
    have ha := a.toNat_lt
    rw [base64, readBase64, if_pos ⟨rfl, rfl, rfl⟩, b64Val_sym _ (by omega), b64Val_sym _ (by omega)]
    simp only [Option.bind_eq_bind, Option.bind_some, Option.some.injEq, List.cons.injEq, and_true]
    exact ofNat_eq a _ (by omega)
  | [a, b] => by
    have ha := a.toNat_lt
    have hb := b.toNat_lt
    rw [base64, readBase64, if_neg (fun h => b64_pad _ (by omega) h.2.2), if_pos ⟨rfl, rfl⟩,
      b64Val_sym _ (by omega), b64Val_sym _ (by omega), b64Val_sym _ (by omega)]
    simp only [Option.bind_eq_bind, Option.bind_some, Option.some.injEq, List.cons.injEq, and_true]
    exact ⟨ofNat_eq a _ (by omega), ofNat_eq b _ (by omega)⟩
  | a :: b :: c :: r => by
    have ha := a.toNat_lt
    have hb := b.toNat_lt
    have hc := c.toNat_lt
    rw [base64, readBase64, if_neg (fun h => b64_pad _ (by omega) h.2.1), if_neg (fun h => b64_pad _ (by omega) h.2),
      b64Val_sym _ (by omega), b64Val_sym _ (by omega), b64Val_sym _ (by omega), b64Val_sym _ (by omega), C150_base64 r]
    simp only [Option.bind_eq_bind, Option.bind_some, Option.some.injEq, List.cons.injEq, and_true]
    exact ⟨ofNat_eq a _ (by omega), ofNat_eq b _ (by omega), ofNat_eq c _ (by omega)⟩

example : base64 [77, 97, 110, 77] = asc ['T', 'W', 'F', 'u', 'T', 'Q', '=', '='] := by decide

theorem base64_inj {a b : Bytes} (h : base64 a = base64 b) : a = b := by
  have h1 := C150_base64 a
  rw [h, C150_base64 b] at h1
  injection h1 with h1; exact h1.symm

theorem base64_length : ∀ b : Bytes, (base64 b).length = 4 * ((b.length + 2) / 3)
  | [] => rfl
  | [a] => by simp [base64]
  | [a, b] => by simp [base64]
  | a :: b :: c :: r => by
    rw [base64]
    simp only [List.length_cons, base64_length r]
    omega

theorem b64_line_table : ∀ v : Fin 64, b64Sym v.val ≠ 10 := by decide +kernel

theorem b64Sym_line (v : Nat) (h : v < 64) : b64Sym v ≠ 10 := b64_line_table ⟨v, h⟩

theorem base64_line : ∀ (b : Bytes), ∀ c ∈ base64 b, c ≠ 10
  | [], c, h => by cases h
  | [a], c, h => by
    have ha := a.toNat_lt
    simp only [base64, List.mem_cons, List.not_mem_nil, or_false] at h
    rcases h with rfl | rfl | rfl | rfl
    · exact b64Sym_line _ (by omega)
    · exact b64Sym_line _ (by omega)
    · decide
    · decide
  | [a, b], c, h => by
    have ha := a.toNat_lt
    have hb := b.toNat_lt
    simp only [base64, List.mem_cons, List.not_mem_nil, or_false] at h
    rcases h with rfl | rfl | rfl | rfl
    · exact b64Sym_line _ (by omega)
    · exact b64Sym_line _ (by omega)
    · exact b64Sym_line _ (by omega)
    · decide
  | a :: b :: c' :: r, c, h => by
    have ha := a.toNat_lt
    have hb := b.toNat_lt
    have hc := c'.toNat_lt
    simp only [base64, List.mem_cons] at h
    rcases h with rfl | rfl | rfl | rfl | h
    · exact b64Sym_line _ (by omega)
    · exact b64Sym_line _ (by omega)
    · exact b64Sym_line _ (by omega)
    · exact b64Sym_line _ (by omega)
    · exact base64_line r c h

/-- C150: the text of a VRF public key is 44 symbols, and determines the key. -/
theorem C150_vrf_key (pk : Bytes) (h : pk.length = 32) :
    (vrfKeyText pk).length = 44 ∧ readBase64 (vrfKeyText pk) = some pk ∧
    ∀ pk', vrfKeyText pk' = vrfKeyText pk → pk' = pk :=
  ⟨by rw [vrfKeyText, base64_length, h], C150_base64 pk, fun _ he => base64_inj he⟩

/-! ## Transaction ids, amounts and rounds -/

/-- C150: the text of a transaction id is read back by the code's own reader, and only the text of an id is read. -/
theorem C150_txid (id s : Bytes) :
    (id.length = 32 → txIdOfText (txIdText id) = .ok id) ∧
    (txIdOfText s = .ok id → txIdText id = s ∧ id.length = 32) := by
  refine ⟨fun h => ?_, fun h => ?_⟩
  · rw [txIdOfText, Address.hashFromStr, txIdText, Address.hashDisplay, Base32.decode_encode]
    simp [h]
  · rw [txIdOfText, Address.hashFromStr] at h
    cases hd : Base32.decode s with
    | none => rw [hd] at h; cases h
    | some d =>
      rw [hd] at h
      simp only at h
      split at h
      · cases h
      · rename_i hl
        injection h with h; subst h
        exact ⟨Base32.encode_decode s d hd, by simpa using hl⟩

example : (txIdText (List.replicate 32 0)).length = 52 := by
  rw [txIdText, Address.hashDisplay, Base32.encode_length]; rfl

/-- C150: the texts of amounts and rounds determine them. -/
theorem C150_numbers (a b : Nat) :
    (microAlgosText a = microAlgosText b → a = b) ∧ (roundText a = roundText b → a = b) :=
  ⟨fun h => num_inj (List.append_cancel_left h), num_inj⟩

example : microAlgosText 1000 = [0xCE, 0xBC, 65, 32, 49, 48, 48, 48] := by decide +kernel

/-! ## Values of programs -/

/-- Specification: the value of a lower case hexadecimal digit. -/
def hexVal (c : UInt8) : Option Nat :=
  (['0', '1', '2', '3', '4', '5', '6', '7', '8', '9', 'a', 'b', 'c', 'd', 'e', 'f'].map fun d => d.toUInt8).idxOf? c

/-- Specification: reading lower case hexadecimal text. -/
def readHex : Bytes → Option Bytes
  | [] => some []
  | [_] => none
  | c :: d :: r => do
    let x ← hexVal c
    let y ← hexVal d
    let t ← readHex r
    pure (UInt8.ofNat (x * 16 + y) :: t)

theorem hexVal_table : ∀ x : Fin 16, hexVal (hexSym x.val) = some x.val := by decide +kernel

theorem hexVal_sym (x : Nat) (h : x < 16) : hexVal (hexSym x) = some x := hexVal_table ⟨x, h⟩

/-- C150: hexadecimal text can be read back. -/
theorem C150_hex : ∀ b : Bytes, readHex (hexLower b) = some b
  | [] => rfl
  | x :: xs => by
    have hx := x.toNat_lt
    have hr := C150_hex xs
    simp only [hexLower] at hr
    simp only [hexLower, List.flatMap_cons, List.cons_append, List.nil_append, readHex]
    rw [hexVal_sym _ (by omega), hexVal_sym _ (by omega), hr]
    have : x.toNat / 16 * 16 + x.toNat % 16 = x.toNat := by omega
    simp only [Option.bind_eq_bind, Option.bind_some, this, UInt8.ofNat_toNat, Option.pure_def]

example : tealValueText (.newBytes [0xAB, 0x0F]) = asc ['a', 'b', '0', 'f'] := by decide +kernel

theorem hex_table : ∀ x y : Fin 16, hexSym x.val = hexSym y.val → x = y := by decide +kernel

theorem hexSym_inj {x y : Nat} (hx : x < 16) (hy : y < 16) (h : hexSym x = hexSym y) : x = y := by
  have := hex_table ⟨x, hx⟩ ⟨y, hy⟩ h
  simpa using this

theorem hexLower_inj : ∀ {a b : Bytes}, hexLower a = hexLower b → a = b
  | [], [], _ => rfl
  | [], y :: ys, h => by simp [hexLower] at h
  | x :: xs, [], h => by simp [hexLower] at h
  | x :: xs, y :: ys, h => by
    have hx := x.toNat_lt
    have hy := y.toNat_lt
    simp only [hexLower, List.flatMap_cons, List.cons_append, List.nil_append, List.cons.injEq] at h
    obtain ⟨h1, h2, h3⟩ := h
    have e1 := hexSym_inj (by omega) (by omega) h1
    have e2 := hexSym_inj (by omega) (by omega) h2
    have : x = y := UInt8.toNat_inj.1 (by omega)
    rw [this, hexLower_inj h3]

/-- C150, the part that holds: among values of one type the text determines what the program sees, and the text of the
type tells the types apart. Missing: the text of a value does not tell its type. -/
theorem C150_value_partial (v w : Teal.TealValue) (ht : v.tealType = w.tealType)
    (h : tealValueText v = tealValueText w) : v.toValueDelta = w.toValueDelta ∧
      (v.tealType = .bytes → readHex (tealValueText v) = some v.bytes) := by
  refine ⟨?_, fun hb => by rw [tealValueText, hb]; exact C150_hex _⟩
  obtain ⟨t, b, n⟩ := v
  obtain ⟨t', b', n'⟩ := w
  simp only at ht
  subst ht
  cases t with
  | bytes => exact congrArg (fun x => (⟨.setBytes, x, 0⟩ : Teal.ValueDelta)) (hexLower_inj h)
  | uint => exact congrArg (fun x => (⟨.setUint, [], x⟩ : Teal.ValueDelta)) (num_inj h)

theorem C150_type (a b : Teal.TealType) (h : tealTypeText a = tealTypeText b) : a = b := by
  cases a <;> cases b <;> first | rfl | exact absurd h (by decide)

/-- C150 fails: bytes and a number have the same text. -/
theorem C150_value_violated :
    tealValueText (.newBytes [0x12]) = tealValueText (.newUint 12) ∧
    (Teal.TealValue.newBytes [0x12]).toValueDelta ≠ (Teal.TealValue.newUint 12).toValueDelta := by
  decide +kernel

/-! ## Messages of multisignature errors -/

/-- The variant, without its values. -/
def msBase : Multisig.MultisigError → Multisig.MultisigError
  | .unknownVersion _ => .unknownVersion 0
  | .thresholdsDontMatch _ _ => .thresholdsDontMatch 0 0
  | .versionsDontMatch _ _ => .versionsDontMatch 0 0
  | e => e

def msAll : List Multisig.MultisigError := [.unknownVersion 0, .invalidThreshold, .invalidSignature, .invalidAddress,
  .invalidNumberOfSignatures, .keyNotExists, .thresholdsDontMatch 0 0, .versionsDontMatch 0 0, .keysDontMatch,
  .invalidDuplicates]

theorem msBase_mem (e : Multisig.MultisigError) : msBase e ∈ msAll := by cases e <;> simp [msBase, msAll]

theorem ms_lead_table : msAll.all (fun a => msAll.all (fun b =>
    decide ((multisigText a).take 9 = (multisigText b).take 9 → a = b))) = true := by decide +kernel

theorem msBase_lead (e : Multisig.MultisigError) : (multisigText e).take 9 = (multisigText (msBase e)).take 9 := by
  cases e <;> rfl

/-- C150: different multisignature errors have different messages. -/
theorem C150_multisig_message (e e' : Multisig.MultisigError) (h : multisigText e = multisigText e') : e = e' := by
  have hb : msBase e = msBase e' := by
    have ht := ms_lead_table
    rw [List.all_eq_true] at ht
    have h1 := ht _ (msBase_mem e)
    rw [List.all_eq_true] at h1
    have h2 := of_decide_eq_true (h1 _ (msBase_mem e'))
    exact h2 (by rw [← msBase_lead, ← msBase_lead, h])
  have pair : ∀ (p : Bytes) (a b c d : UInt8),
      p ++ num a.toNat ++ asc [' ', '!', '=', ' '] ++ num b.toNat =
        p ++ num c.toNat ++ asc [' ', '!', '=', ' '] ++ num d.toNat → a = c ∧ b = d := by
    intro p a b c d hp
    simp only [List.append_assoc] at hp
    have hp := List.append_cancel_left hp
    obtain ⟨h1, h2⟩ := run_split wordByte _ _ _ _ (num_word _) (num_word _)
      (by intro c hc; simp [asc] at hc; subst hc; decide) (by intro c hc; simp [asc] at hc; subst hc; decide) hp
    exact ⟨UInt8.toNat_inj.1 (num_inj h1), UInt8.toNat_inj.1 (num_inj (List.append_cancel_left h2))⟩
  cases e with
  | unknownVersion v =>
    cases e' with
    | unknownVersion w =>
      have := num_inj (List.append_cancel_left h)
      rw [UInt8.toNat_inj.1 this]
    | _ => cases hb
  | thresholdsDontMatch a b =>
    cases e' with
    | thresholdsDontMatch c d => obtain ⟨h1, h2⟩ := pair _ a b c d h; rw [h1, h2]
    | _ => cases hb
  | versionsDontMatch a b =>
    cases e' with
    | versionsDontMatch c d => obtain ⟨h1, h2⟩ := pair _ a b c d h; rw [h1, h2]
    | _ => cases hb
  | _ => cases e' <;> first | rfl | cases hb

example : multisigText (.thresholdsDontMatch 2 3) ≠ multisigText (.thresholdsDontMatch 3 2) :=
  fun h => by have := C150_multisig_message _ _ h; cases this

/-! ## The output of `algokey part` -/

/-- A byte that does not end a line. -/
def lineByte (c : UInt8) : Bool := c != 10

theorem line_step {a b r s : Bytes} (ha : ∀ c ∈ a, c ≠ 10) (hb : ∀ c ∈ b, c ≠ 10)
    (h : a ++ (eol ++ r) = b ++ (eol ++ s)) : a = b ∧ r = s := by
  obtain ⟨h1, h2⟩ := run_split lineByte a b (eol ++ r) (eol ++ s)
    (fun c hc => by simpa [lineByte] using ha c hc) (fun c hc => by simpa [lineByte] using hb c hc)
    (by intro c hc; simp [eol] at hc; subst hc; decide) (by intro c hc; simp [eol] at hc; subst hc; decide) h
  exact ⟨h1, List.append_cancel_left h2⟩

theorem num_line (n : Nat) : ∀ c ∈ num n, c ≠ 10 := by
  intro c hc he
  have := num_word n c hc
  rw [he] at this
  exact absurd this (by decide)

theorem base32_line (b : Bytes) : ∀ c ∈ Base32.encode b, c ≠ 10 := by
  intro c hc he
  have := hashDisplay_word b c hc
  rw [he] at this
  exact absurd this (by decide)

/-- C150: what `algokey part` prints about a participation key determines the address, both keys, the rounds, the
dilution and the position of the next one-time key. (For every hash with digests of four bytes or more.) -/
theorem C150_participation (hash : Bytes → Bytes) (hh : ∀ x, 4 ≤ (hash x).length) (i : Algokey.Info)
    (hi : i.parent.length = 32) : ∃ t, infoText (ε := Unit) hash i = .ok t ∧
      ∀ j, infoText (ε := Unit) hash j = .ok t → j = i := by
  have hd : ∀ p : Bytes, p.length = 32 → Address.display (ε := Unit) hash p =
      .ok (Base32.encode (p ++ (hash p).drop ((hash p).length - 4))) := by
    intro p hp
    rw [Address.display, if_pos hp, Address.checksum, if_pos (hh p)]; rfl
  refine ⟨_, by rw [infoText, hd _ hi, Res.ok_bind]; rfl, ?_⟩
  intro j hj
  rw [infoText] at hj
  by_cases hjl : j.parent.length = 32
  · rw [hd _ hjl, Res.ok_bind] at hj
    injection hj with hj
    have hj := List.append_cancel_left hj
    obtain ⟨h1, hj⟩ := line_step (base32_line _) (base32_line _) hj
    have hj := List.append_cancel_left hj
    obtain ⟨h2, hj⟩ := line_step (base64_line _) (base64_line _) hj
    have hj := List.append_cancel_left hj
    obtain ⟨h3, hj⟩ := line_step (base64_line _) (base64_line _) hj
    have hj := List.append_cancel_left hj
    obtain ⟨h4, hj⟩ := line_step (num_line _) (num_line _) hj
    have hj := List.append_cancel_left hj
    obtain ⟨h5, hj⟩ := line_step (num_line _) (num_line _) hj
    have hj := List.append_cancel_left hj
    obtain ⟨h6, hj⟩ := line_step (num_line _) (num_line _) hj
    have hj := List.append_cancel_left hj
    obtain ⟨h7, hj⟩ := line_step (num_line _) (num_line _) hj
    have hj := List.append_cancel_left hj
    have h8 := List.append_cancel_right hj
    have e1 := Base32.encode_injective _ _ h1
    have e1 := (List.append_inj e1 (by rw [hjl, hi])).1
    obtain ⟨a1, a2, a3, a4, a5, a6, a7, a8⟩ := i
    obtain ⟨b1, b2, b3, b4, b5, b6, b7, b8⟩ := j
    simp only at e1 h2 h3 h4 h5 h6 h7 h8
    rw [e1, base64_inj h2, base64_inj h3, num_inj h4, num_inj h5, num_inj h6, num_inj h7, num_inj h8]
  · rw [Address.display, if_neg hjl] at hj
    cases hj

example : ∃ t, infoText (ε := Unit) (fun _ => [1, 2, 3, 4]) ⟨List.replicate 32 7, [1], [2], 0, 100, 10, 0, 0⟩ = .ok t ∧
    120 < t.length := by
  obtain ⟨t, h, _⟩ := C150_participation (fun _ => [1, 2, 3, 4]) (by simp) ⟨List.replicate 32 7, [1], [2], 0, 100, 10, 0, 0⟩
    (by simp)
  refine ⟨t, h, ?_⟩
  rw [infoText, Address.display, if_pos (by simp), Address.checksum, if_pos (by simp), Res.ok_bind] at h
  injection h with h
  rw [← h]
  simp only [List.length_append, asc, List.length_map, List.length_cons]
  omega

/-- A case of `C150_vrf_key`, `C150_value_partial` and `C150_type`. -/
example : (vrfKeyText (List.replicate 32 7)).length = 44 ∧ tealTypeText .bytes ≠ tealTypeText .uint ∧
    tealValueText (.newBytes [0xAB, 0x0F]) ≠ tealValueText (.newBytes [0xAB, 0xF0]) := by
  refine ⟨(C150_vrf_key _ (by simp)).1, fun h => (by cases C150_type _ _ h), fun h => ?_⟩
  have h1 := (C150_value_partial (.newBytes [0xAB, 0x0F]) (.newBytes [0xAB, 0xF0]) rfl h).1
  exact absurd h1 (by decide +kernel)

end Verif.Props
