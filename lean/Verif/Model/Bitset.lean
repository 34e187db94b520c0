import Verif.Base.Res
/-!
# Model of `src/crypto/merkletrie/bitset.rs`
-/

namespace Verif.Bitset
open Verif

/-- `struct Bitset { data: [u64; 4] }` (lines 9-11). The array is a list of four words. -/
structure Bitset where
  data : List (BitVec 64)
  deriving Repr, DecidableEq

/-- `Default` (derived, line 8): all words zero. -/
def Bitset.empty : Bitset := ⟨List.replicate 4 0⟩

/-- The mask `1 << (bit & 63)` (lines 16, 22, 27). -/
def mask (bit : Nat) : BitVec 64 := 1#64 <<< (bit % 64)

/-- `set_bit` (lines 15-17); indexing past the array panics. -/
def Bitset.setBit (b : Bitset) (bit : Nat) : Res Empty Bitset :=
  match b.data[bit / 64]? with
  | some w => .ok ⟨b.data.set (bit / 64) (w ||| mask bit)⟩
  | none => .panic

/-- `clear_bit` (lines 20-23). -/
def Bitset.clearBit (b : Bitset) (bit : Nat) : Res Empty Bitset :=
  match b.data[bit / 64]? with
  | some w => .ok ⟨b.data.set (bit / 64) (w &&& ~~~ (mask bit))⟩
  | none => .panic

/-- `bit` (lines 26-28). -/
def Bitset.bit (b : Bitset) (bit : Nat) : Res Empty Bool :=
  match b.data[bit / 64]? with
  | some w => .ok (decide ((w &&& mask bit) ≠ 0))
  | none => .panic

/-- `is_zero` (lines 31-33). -/
def Bitset.isZero (b : Bitset) : Bool := b.data == List.replicate 4 0

end Verif.Bitset
