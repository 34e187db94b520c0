import Verif.Base.Res
/-!
# SHA-512 and SHA-512/256 (FIPS 180-4)

The hash functions of the crate `sha2`, written from the standard and not from the source of the crate. `run_length` is all
that is proved about them; the test vectors are in `Validation/Vectors.lean`.
-/

namespace Verif.Sha512
open Verif


/-- The constants of section 4.2.3. -/
def roundConstants : Array UInt64 := #[0x428a2f98d728ae22, 0x7137449123ef65cd, 0xb5c0fbcfec4d3b2f, 0xe9b5dba58189dbbc,
    0x3956c25bf348b538, 0x59f111f1b605d019, 0x923f82a4af194f9b, 0xab1c5ed5da6d8118,
    0xd807aa98a3030242, 0x12835b0145706fbe, 0x243185be4ee4b28c, 0x550c7dc3d5ffb4e2,
    0x72be5d74f27b896f, 0x80deb1fe3b1696b1, 0x9bdc06a725c71235, 0xc19bf174cf692694,
    0xe49b69c19ef14ad2, 0xefbe4786384f25e3, 0x0fc19dc68b8cd5b5, 0x240ca1cc77ac9c65,
    0x2de92c6f592b0275, 0x4a7484aa6ea6e483, 0x5cb0a9dcbd41fbd4, 0x76f988da831153b5,
    0x983e5152ee66dfab, 0xa831c66d2db43210, 0xb00327c898fb213f, 0xbf597fc7beef0ee4,
    0xc6e00bf33da88fc2, 0xd5a79147930aa725, 0x06ca6351e003826f, 0x142929670a0e6e70,
    0x27b70a8546d22ffc, 0x2e1b21385c26c926, 0x4d2c6dfc5ac42aed, 0x53380d139d95b3df,
    0x650a73548baf63de, 0x766a0abb3c77b2a8, 0x81c2c92e47edaee6, 0x92722c851482353b,
    0xa2bfe8a14cf10364, 0xa81a664bbc423001, 0xc24b8b70d0f89791, 0xc76c51a30654be30,
    0xd192e819d6ef5218, 0xd69906245565a910, 0xf40e35855771202a, 0x106aa07032bbd1b8,
    0x19a4c116b8d2d0c8, 0x1e376c085141ab53, 0x2748774cdf8eeb99, 0x34b0bcb5e19b48a8,
    0x391c0cb3c5c95a63, 0x4ed8aa4ae3418acb, 0x5b9cca4f7763e373, 0x682e6ff3d6b2b8a3,
    0x748f82ee5defb2fc, 0x78a5636f43172f60, 0x84c87814a1f0ab72, 0x8cc702081a6439ec,
    0x90befffa23631e28, 0xa4506cebde82bde9, 0xbef9a3f7b2c67915, 0xc67178f2e372532b,
    0xca273eceea26619c, 0xd186b8c721c0c207, 0xeada7dd6cde0eb1e, 0xf57d4f7fee6ed178,
    0x06f067aa72176fba, 0x0a637dc5a2c898a6, 0x113f9804bef90dae, 0x1b710b35131c471b,
    0x28db77f523047d84, 0x32caab7b40c72493, 0x3c9ebe0a15c9bebc, 0x431d67c49c100d4c,
    0x4cc5d4becb3e42b6, 0x597f299cfc657e2a, 0x5fcb6fab3ad6faec, 0x6c44198c4a475817]

/-- Initial value of SHA-512/256 (section 5.3.6.2). -/
def initial256 : Array UInt64 := #[0x22312194fc2bf72c, 0x9f555fa3c84c64c2, 0x2393b86b6f53b151, 0x963877195940eabd,
    0x96283ee2a88effe3, 0xbe5e1e2553863992, 0x2b0199fc2c85b8aa, 0x0eb72ddc81c52ca2]

/-- Initial value of SHA-512 (section 5.3.5). -/
def initial512 : Array UInt64 := #[0x6a09e667f3bcc908, 0xbb67ae8584caa73b, 0x3c6ef372fe94f82b, 0xa54ff53a5f1d36f1,
    0x510e527fade682d1, 0x9b05688c2b3e6c1f, 0x1f83d9abfb41bd6b, 0x5be0cd19137e2179]

/-- Rotation to the right. -/
def rotr (x n : UInt64) : UInt64 := (x >>> n) ||| (x <<< (64 - n))

/-- Padding (section 5.1.2). -/
def pad (m : Bytes) : Bytes :=
  m ++ [(0x80 : UInt8)] ++ List.replicate ((239 - m.length % 128) % 128) (0 : UInt8) ++
    (List.range 16).map fun i => UInt8.ofNat ((m.length * 8) >>> (8 * (15 - i)))

/-- Eight bytes as a word, most significant first. -/
def wordOf (a : Array UInt8) (i : Nat) : UInt64 :=
  (List.range 8).foldl (fun r j => (r <<< 8) ||| (a.getD (i + j) 0).toUInt64) 0

/-- The message schedule of a block. -/
def schedule (p : Array UInt8) (blk : Nat) : Array UInt64 :=
  (List.range 64).foldl (fun w i =>
    let a := w.getD (i + 1) 0
    let b := w.getD (i + 14) 0
    w.push (w.getD i 0 + (rotr a 1 ^^^ rotr a 8 ^^^ (a >>> 7)) + w.getD (i + 9) 0 + (rotr b 19 ^^^ rotr b 61 ^^^ (b >>> 6))))
    ((Array.range 16).map fun t => wordOf p (blk * 128 + 8 * t))

/-- The working variables. -/
structure Regs where
  a : UInt64
  b : UInt64
  c : UInt64
  d : UInt64
  e : UInt64
  f : UInt64
  g : UInt64
  h : UInt64

/-- The compression function (section 6.4.2). -/
def compress (h : Array UInt64) (w : Array UInt64) : Array UInt64 :=
  let s := (List.range 80).foldl (fun (s : Regs) t =>
    let t1 := s.h + (rotr s.e 14 ^^^ rotr s.e 18 ^^^ rotr s.e 41) + ((s.e &&& s.f) ^^^ ((~~~ s.e) &&& s.g)) +
      roundConstants.getD t 0 + w.getD t 0
    let t2 := (rotr s.a 28 ^^^ rotr s.a 34 ^^^ rotr s.a 39) + ((s.a &&& s.b) ^^^ (s.a &&& s.c) ^^^ (s.b &&& s.c))
    ⟨t1 + t2, s.a, s.b, s.c, s.d + t1, s.e, s.f, s.g⟩)
    ⟨h.getD 0 0, h.getD 1 0, h.getD 2 0, h.getD 3 0, h.getD 4 0, h.getD 5 0, h.getD 6 0, h.getD 7 0⟩
  #[h.getD 0 0 + s.a, h.getD 1 0 + s.b, h.getD 2 0 + s.c, h.getD 3 0 + s.d,
    h.getD 4 0 + s.e, h.getD 5 0 + s.f, h.getD 6 0 + s.g, h.getD 7 0 + s.h]

/-- The hash computation (section 6.4), with the whole last value. -/
def run (init : Array UInt64) (m : Bytes) : Bytes :=
  let p := (pad m).toArray
  let h := (List.range (p.size / 128)).foldl (fun h blk => compress h (schedule p blk)) init
  h.toList.flatMap fun x => (List.range 8).map fun i => (x >>> (UInt64.ofNat (8 * (7 - i)))).toUInt8

/-- SHA-512, used by vrf.rs (lines 19, 188, 256, 265, 267, 280) and inside `ed25519-dalek`. -/
def sha512 (m : Bytes) : Bytes := run initial512 m

/-- SHA-512/256, `hash` of hashable.rs (lines 81-83). -/
def sha512_256 (m : Bytes) : Bytes := (run initial256 m).take 32

theorem run_length (init : Array UInt64) (hi : init.size = 8) (m : Bytes) : (run init m).length = 64 := by
  have h : ∀ (l : List Nat) (h0 : Array UInt64), h0.size = 8 →
      (l.foldl (fun h blk => compress h (schedule (pad m).toArray blk)) h0).size = 8 := by
    intro l
    induction l with
    | nil => intro h0 h; exact h
    | cons b l ih => intro h0 _; exact ih _ rfl
  have h8 := h (List.range ((pad m).toArray.size / 128)) init hi
  rw [run]
  simp only [List.length_flatMap, List.length_map, List.length_range, List.map_const', List.sum_replicate_nat,
    Array.length_toList, h8]

theorem sha512_length (m : Bytes) : (sha512 m).length = 64 := run_length _ rfl m

theorem sha512_256_length (m : Bytes) : (sha512_256 m).length = 32 := by
  rw [sha512_256, List.length_take, run_length _ rfl]
  rfl

end Verif.Sha512
