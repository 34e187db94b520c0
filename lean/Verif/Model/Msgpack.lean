import Verif.Model.Balance
/-!
# MessagePack as written and read by `rmp` 0.8.11, the format behind `src/protocol/codec.rs`

The value tree holds everything but extension types, which are rejected; nor is the nesting depth limited to the 1024
levels of rmp-serde. Negative integers and floating point numbers are read (in fields that are ignored, or refused by
the types) but never written by this project. A map is the list of its keys and values, alternating, in the order they
are written. The byte layout is the one of the MessagePack
specification with the shortest form for each value, which is what `rmp`'s `write_uint`, `write_str_len`,
`write_bin_len`, `write_array_len` and `write_map_len` produce.
-/

namespace Verif.Msgpack
open Verif Verif.Balance

/-- A MessagePack value: `neg n` is the integer `-1 - n`, `float b` the floating point number with the bytes `b`. -/
inductive MP where
  | nil
  | bool (b : Bool)
  | uint (n : Nat)
  | neg (n : Nat)
  | float (b : Bytes)
  | str (s : Bytes)
  | bin (s : Bytes)
  | arr (l : List MP)
  | map (kvs : List MP)

/-- `write_uint`. -/
def encUint (n : Nat) : Bytes :=
  if n < 128 then [UInt8.ofNat n]
  else if n < 256 then 0xcc :: beBytes 1 n
  else if n < 65536 then 0xcd :: beBytes 2 n
  else if n < 4294967296 then 0xce :: beBytes 4 n
  else 0xcf :: beBytes 8 n

/-- `write_sint` of `-1 - n`. -/
def encNeg (n : Nat) : Bytes :=
  if n < 32 then [UInt8.ofNat (0xff - n)]
  else if n < 128 then 0xd0 :: beBytes 1 (255 - n)
  else if n < 32768 then 0xd1 :: beBytes 2 (65535 - n)
  else if n < 2147483648 then 0xd2 :: beBytes 4 (4294967295 - n)
  else 0xd3 :: beBytes 8 (18446744073709551615 - n)

/-- `write_str_len`. -/
def strHeader (n : Nat) : Bytes :=
  if n < 32 then [UInt8.ofNat (0xa0 + n)]
  else if n < 256 then 0xd9 :: beBytes 1 n
  else if n < 65536 then 0xda :: beBytes 2 n
  else 0xdb :: beBytes 4 n

/-- `write_bin_len`. -/
def binHeader (n : Nat) : Bytes :=
  if n < 256 then 0xc4 :: beBytes 1 n
  else if n < 65536 then 0xc5 :: beBytes 2 n
  else 0xc6 :: beBytes 4 n

/-- `write_array_len`. -/
def arrHeader (n : Nat) : Bytes :=
  if n < 16 then [UInt8.ofNat (0x90 + n)]
  else if n < 65536 then 0xdc :: beBytes 2 n
  else 0xdd :: beBytes 4 n

/-- `write_map_len`. -/
def mapHeader (n : Nat) : Bytes :=
  if n < 16 then [UInt8.ofNat (0x80 + n)]
  else if n < 65536 then 0xde :: beBytes 2 n
  else 0xdf :: beBytes 4 n

mutual
/-- The bytes of a value (`rmp_serde::to_vec`, codec.rs lines 6-8). -/
def enc : MP → Bytes
  | .nil => [0xc0]
  | .bool false => [0xc2]
  | .bool true => [0xc3]
  | .uint n => encUint n
  | .neg n => encNeg n
  | .float b => (if b.length = 4 then 0xca else 0xcb) :: b
  | .str s => strHeader s.length ++ s
  | .bin s => binHeader s.length ++ s
  | .arr l => arrHeader l.length ++ encList l
  | .map kvs => mapHeader (kvs.length / 2) ++ encList kvs
/-- The bytes of consecutive values. -/
def encList : List MP → Bytes
  | [] => []
  | a :: l => enc a ++ encList l
end

/-- A big endian number. -/
def ofBE : Bytes → Nat := List.foldl (fun acc b => acc * 256 + b.toNat) 0

/-- Reads `k` bytes. -/
def takeN (k : Nat) (bs : Bytes) : Option (Bytes × Bytes) := if bs.length < k then none else some (bs.take k, bs.drop k)

/-- Reads a big endian number of `k` bytes. -/
def takeBE (k : Nat) (bs : Bytes) : Option (Nat × Bytes) := (takeN k bs).map fun (x, r) => (ofBE x, r)

/-- Reads `n` consecutive values with the given reader. -/
def decN (f : Bytes → Option (MP × Bytes)) : Nat → Bytes → Option (List MP × Bytes)
  | 0, bs => some ([], bs)
  | n + 1, bs => do
    let (a, bs) ← f bs
    let (l, bs) ← decN f n bs
    some (a :: l, bs)

/-- A two's complement number of `k` bytes. -/
def sint (k : Nat) (p : Nat × Bytes) : Option (MP × Bytes) :=
  some (if 2 * p.1 < 256 ^ k then .uint p.1 else .neg (256 ^ k - 1 - p.1), p.2)

/-- What follows the marker byte `b`. -/
def decBody (f : Bytes → Option (MP × Bytes)) (b : Nat) (bs : Bytes) : Option (MP × Bytes) :=
  let str (p : Nat × Bytes) := (takeN p.1 p.2).map fun (s, r) => (MP.str s, r)
  let bin (p : Nat × Bytes) := (takeN p.1 p.2).map fun (s, r) => (MP.bin s, r)
  let arr (p : Nat × Bytes) := (decN f p.1 p.2).map fun (l, r) => (MP.arr l, r)
  let map (p : Nat × Bytes) := (decN f (2 * p.1) p.2).map fun (l, r) => (MP.map l, r)
  let uint (p : Nat × Bytes) := some (MP.uint p.1, p.2)
  let float (p : Bytes × Bytes) := (MP.float p.1, p.2)
  if b < 0x80 then some (.uint b, bs)
  else if b < 0x90 then map (b - 0x80, bs)
  else if b < 0xa0 then arr (b - 0x90, bs)
  else if b < 0xc0 then str (b - 0xa0, bs)
  else if b = 0xc0 then some (.nil, bs)
  else if b = 0xc2 then some (.bool false, bs)
  else if b = 0xc3 then some (.bool true, bs)
  else if b = 0xc4 then (takeBE 1 bs).bind bin
  else if b = 0xc5 then (takeBE 2 bs).bind bin
  else if b = 0xc6 then (takeBE 4 bs).bind bin
  else if b = 0xca then (takeN 4 bs).map float
  else if b = 0xcb then (takeN 8 bs).map float
  else if b = 0xcc then (takeBE 1 bs).bind uint
  else if b = 0xcd then (takeBE 2 bs).bind uint
  else if b = 0xce then (takeBE 4 bs).bind uint
  else if b = 0xcf then (takeBE 8 bs).bind uint
  else if b = 0xd0 then (takeBE 1 bs).bind (sint 1)
  else if b = 0xd1 then (takeBE 2 bs).bind (sint 2)
  else if b = 0xd2 then (takeBE 4 bs).bind (sint 4)
  else if b = 0xd3 then (takeBE 8 bs).bind (sint 8)
  else if b = 0xd9 then (takeBE 1 bs).bind str
  else if b = 0xda then (takeBE 2 bs).bind str
  else if b = 0xdb then (takeBE 4 bs).bind str
  else if b = 0xdc then (takeBE 2 bs).bind arr
  else if b = 0xdd then (takeBE 4 bs).bind arr
  else if b = 0xde then (takeBE 2 bs).bind map
  else if b = 0xdf then (takeBE 4 bs).bind map
  else if 0xe0 ≤ b then some (.neg (0xff - b), bs)
  else none

/-- Reads one value, nested at most `fuel` deep; extension types and the unused marker `0xc1` are rejected. -/
def dec : Nat → Bytes → Option (MP × Bytes)
  | 0, _ => none
  | _ + 1, [] => none
  | fuel + 1, b :: bs => decBody (dec fuel) b.toNat bs

/-- Reads the first value of a byte string, with enough fuel for any value it can hold; like
`rmp_serde::decode::from_slice` (codec.rs lines 10-12) it does not look at what follows. -/
def decode (bs : Bytes) : Option (MP × Bytes) := dec (bs.length + 1) bs

end Verif.Msgpack
