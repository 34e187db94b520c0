import Verif.Model.Trie
/-!
# Model of `Node::deserialize` on arbitrary bytes

`Verif/Model/Trie.lean` reads stored nodes with unbounded numbers and without a limit on memory, which is enough for the
bytes the trie writes itself. This file has the same function for bytes of any origin: numbers are `u64`, as read by
`read_varint` of the crate `integer-encoding` (3.0.4), and `vec![0; hash_length]` is allocated before the bytes are there.
-/

namespace Verif.Trie
open Verif

/-- `VarIntReader::read_varint` with at most `k` bytes: the bits and the remaining bytes. A number that is not ended by
its last byte, or by the end of the input, is refused. -/
def readBits : Nat → Bytes → Option (Nat × Bytes)
  | 0, _ => none
  | _ + 1, [] => none
  | k + 1, b :: bs =>
    if b.toNat < 128 then some (b.toNat, bs)
    else match readBits k bs with
      | some (v, rest) => some (b.toNat - 128 + 128 * v, rest)
      | none => none

/-- `read_varint::<u64>` (and `usize`): at most ten bytes; the bits shifted out of the tenth byte are lost. -/
def readU64 (bs : Bytes) : Option (Nat × Bytes) := (readBits 10 bs).map fun x => (x.1 % 2 ^ 64, x.2)

theorem readBits_length : ∀ (k : Nat) (bs : Bytes) (v : Nat) (rest : Bytes), readBits k bs = some (v, rest) →
    rest.length < bs.length
  | 0, _, _, _, h => by simp [readBits] at h
  | _ + 1, [], _, _, h => by simp [readBits] at h
  | k + 1, b :: bs, v, rest, h => by
    simp only [readBits] at h
    split at h
    · simp only [Option.some.injEq, Prod.mk.injEq] at h; rw [← h.2]; simp
    · split at h
      · rename_i v' rest' hr
        simp only [Option.some.injEq, Prod.mk.injEq] at h
        have := readBits_length k bs v' rest' hr
        rw [← h.2]; simp; omega
      · cases h

theorem readU64_length {bs : Bytes} {v : Nat} {rest : Bytes} (h : readU64 bs = some (v, rest)) : rest.length < bs.length := by
  rw [readU64] at h
  obtain ⟨x, h1, h2⟩ := Option.map_eq_some_iff.1 h
  obtain ⟨a, b⟩ := x
  have := readBits_length 10 bs a b h1
  injection h2 with _ h2
  rw [← h2]
  exact this

/-- The `while` loop of `deserialize` (node.rs lines 248-254). -/
def readChildren64 (ch : Children) (bs : Bytes) : Option Children :=
  match bs with
  | [] => some ch
  | b :: bs =>
    match h : readU64 bs with
    | none => none
    | some (id, rest) => readChildren64 (upd ch b (some id)) rest
termination_by bs.length
decreasing_by
  have := readU64_length h
  simp; omega

/-- `Node::deserialize` (node.rs lines 235-257), where `mem` is the length of the largest vector of bytes that can be
allocated (never more than `isize::MAX`, 2^63 - 1): `.err ()` is `None`, and `.panic` stands for the panic ("capacity
overflow") or the abort of a failing allocation. -/
def deserialize64 (mem : Nat) (buf : Bytes) : Res Unit Node :=
  match readU64 buf with
  | none => .err ()
  | some (len, rest) =>
    if mem < len then .panic
    else if rest.length < len then .err ()
    else
      match rest.drop len with
      | [] => .err ()
      | inner :: tail =>
        if inner = 1 then
          match readChildren64 noChildren tail with
          | none => .err ()
          | some ch => .ok ⟨false, rest.take len, some ch⟩
        else .ok ⟨false, rest.take len, none⟩

end Verif.Trie
