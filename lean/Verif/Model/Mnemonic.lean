import Verif.Base.Res
/-!
# Model of `src/crypto/mnemonic.rs`

Parameters: the word list (`WORDS`, line 18, loaded from
`data/mnemonics_wordlist.txt`) as a list of words of any type, and the checksum
hash SHA-512/256.
-/

namespace Verif.Mnemonic
open Verif

/-- `x << n` on `u32` (bits shifted out are lost); the shift amount is below 32 in all uses. -/
def shl32 (x n : Nat) : Nat := (x <<< n) % 2 ^ 32

/-- Loop of `to_base11` (lines 149-157): state is the output, `buf` and `buf_bits`. -/
def base11Loop : List UInt8 → List Nat → Nat → Nat → List Nat × Nat × Nat
  | [], out, buf, bits => (out, buf, bits)
  | x :: xs, out, buf, bits =>
    let buf := buf ||| shl32 x.toNat bits
    let bits := bits + 8
    if bits ≥ 11 then base11Loop xs (out ++ [buf &&& 0x7ff]) (buf >>> 11) (bits - 11)
    else base11Loop xs out buf bits

/-- `to_base11` (lines 144-164). -/
def toBase11 (data : List UInt8) : List Nat :=
  let r := base11Loop data [] 0 0
  if r.2.2 ≠ 0 then r.1 ++ [r.2.1 &&& 0x7ff] else r.1

/-- The inner `while` of `to_base8` (lines 177-181); `buf as u8` truncates. -/
def drain8 (out : List UInt8) (buf bits : Nat) : List UInt8 × Nat × Nat :=
  if bits ≥ 8 then drain8 (out ++ [UInt8.ofNat buf]) (buf >>> 8) (bits - 8)
  else (out, buf, bits)
termination_by bits

/-- Loop of `to_base8` (lines 174-182). -/
def base8Loop : List Nat → List UInt8 → Nat → Nat → List UInt8 × Nat × Nat
  | [], out, buf, bits => (out, buf, bits)
  | x :: xs, out, buf, bits =>
    let r := drain8 out (buf ||| shl32 x bits) (bits + 11)
    base8Loop xs r.1 r.2.1 r.2.2

/-- `to_base8` (lines 169-189). -/
def toBase8 (data : List Nat) : List UInt8 :=
  let r := base8Loop data [] 0 0
  if r.2.2 ≠ 0 then r.1 ++ [UInt8.ofNat r.2.1] else r.1

/-- `MnemonicError` (lines 22-26). -/
inductive MnemonicError (W : Type) where
  | wrongMnemonicLen (n : Nat)
  | invalidWord (w : W)
  | wrongChecksum
  deriving Repr, DecidableEq

variable {W : Type} [DecidableEq W]

/-- `checksum` (lines 137-140): first base-11 digit of the first two hash bytes;
slicing or indexing past the end panics. -/
def checksum {ε : Type} (hash : Bytes → Bytes) (data : Bytes) : Res ε Nat :=
  let h := hash data
  if 2 ≤ h.length then
    match (toBase11 (h.take 2))[0]? with
    | some c => .ok c
    | none => .panic
  else .panic

/-- `WORDS[i].clone()`; panics out of range. -/
def wordAt {ε : Type} (words : List W) (i : Nat) : Res ε W := .ofOption words[i]?

/-- The lookup of all digits (lines 48-51). -/
def wordsAt {ε : Type} (words : List W) : List Nat → Res ε (List W)
  | [] => .ok []
  | i :: is => do
    let w ← wordAt words i
    let ws ← wordsAt words is
    pure (w :: ws)

/-- `key_to_mnemonic` (lines 47-56). -/
def keyToMnemonic (words : List W) (hash : Bytes → Bytes) (key : Bytes) : Res Empty (List W) := do
  let m ← wordsAt words (toBase11 key)
  let chk ← checksum hash key
  let w ← wordAt words chk
  pure (m ++ [w])

/-- The position loop (lines 78-86): first unknown word is the error. -/
def positions (words : List W) : List W → Res (MnemonicError W) (List Nat)
  | [] => .ok []
  | w :: ws =>
    match words.findIdx? (· == w) with
    | none => .err (.invalidWord w)
    | some p => do
      let ps ← positions words ws
      pure (p :: ps)

/-- `mnemonic_to_key` (lines 73-114). -/
def mnemonicToKey (words : List W) (hash : Bytes → Bytes) (mnemonic : List W) :
    Res (MnemonicError W) Bytes :=
  if mnemonic.length ≠ 25 then .err (.wrongMnemonicLen mnemonic.length)
  else do
    let base11 ← positions words mnemonic
    -- `base11[..len - 1]` and `base11[len - 1]`
    let bytes := toBase8 base11.dropLast
    if bytes.length ≠ 33 then .panic   -- unreachable! (line 98)
    else
      match bytes[32]? with
      | none => .panic
      | some last =>
        if last ≠ 0 then .err .wrongChecksum
        else
          let bytes := bytes.dropLast
          match base11.getLast? with
          | none => .panic
          | some chkWord => do
            let c ← checksum hash bytes
            if c = chkWord then .ok bytes else .err .wrongChecksum

/-- `char::is_whitespace` (Unicode `White_Space`), used by `split_whitespace` (line 61). -/
def isWhitespace (c : Char) : Bool :=
  let n := c.toNat
  (0x9 ≤ n ∧ n ≤ 0xD) || n = 0x20 || n = 0x85 || n = 0xA0 || n = 0x1680 ||
  (0x2000 ≤ n ∧ n ≤ 0x200A) || n = 0x2028 || n = 0x2029 || n = 0x202F || n = 0x205F || n = 0x3000

/-- `split_whitespace`: maximal runs of non-whitespace characters. `cur` is the word being read. -/
def splitWsAux : List Char → List Char → List (List Char)
  | cur, [] => if cur.isEmpty then [] else [cur]
  | cur, c :: cs =>
    if isWhitespace c then
      if cur.isEmpty then splitWsAux [] cs else cur :: splitWsAux [] cs
    else splitWsAux (cur ++ [c]) cs

/-- `phrase_to_key` (lines 59-66). -/
def phraseToKey (words : List (List Char)) (hash : Bytes → Bytes) (phrase : List Char) :
    Res (MnemonicError (List Char)) Bytes :=
  mnemonicToKey words hash (splitWsAux [] phrase)

end Verif.Mnemonic
