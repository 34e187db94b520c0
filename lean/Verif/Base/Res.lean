/-!
# Outcomes of Rust functions

`Res ε α` is the outcome of a Rust function returning `Result<α, ε>` (or a
plain `α`): a value, a returned error, or a panic (index out of bounds,
`unwrap` on `None`/`Err`, `unreachable!`, arithmetic overflow, division by
zero).
-/

namespace Verif

/-- Outcome of a Rust function: value, returned error, or panic. -/
inductive Res (ε : Type) (α : Type) where
  | ok : α → Res ε α
  | err : ε → Res ε α
  | panic : Res ε α
  deriving Repr, DecidableEq

namespace Res

variable {ε α β : Type}

/-- Sequencing, i.e. the `?` operator and panics that abort the function. -/
def bind (r : Res ε α) (f : α → Res ε β) : Res ε β :=
  match r with
  | ok a => f a
  | err e => err e
  | panic => panic

instance : Monad (Res ε) where
  pure := ok
  bind := bind

@[simp] theorem pure_eq (a : α) : (pure a : Res ε α) = ok a := rfl
@[simp] theorem ok_bind (a : α) (f : α → Res ε β) : (ok a >>= f) = f a := rfl
@[simp] theorem err_bind (e : ε) (f : α → Res ε β) : (err e >>= f) = err e := rfl
@[simp] theorem panic_bind (f : α → Res ε β) : ((panic : Res ε α) >>= f) = panic := rfl

theorem bind_eq_ok {r : Res ε α} {f : α → Res ε β} {b : β} :
    (r >>= f) = ok b ↔ ∃ a, r = ok a ∧ f a = ok b := by
  cases r <;> simp

/-- Whether the outcome is a value. -/
def isOk : Res ε α → Bool
  | ok _ => true
  | _ => false

@[simp] theorem isOk_ok (a : α) : (ok a : Res ε α).isOk = true := rfl
@[simp] theorem isOk_err (e : ε) : (err e : Res ε α).isOk = false := rfl
@[simp] theorem isOk_panic : (panic : Res ε α).isOk = false := rfl

theorem isOk_iff {r : Res ε α} : r.isOk = true ↔ ∃ a, r = ok a := by
  cases r <;> simp

/-- Turn an absent value (`unwrap` on `None`) into a panic. -/
def ofOption : Option α → Res ε α
  | some a => ok a
  | none => panic

@[simp] theorem ofOption_some (a : α) : (ofOption (some a) : Res ε α) = ok a := rfl
@[simp] theorem ofOption_none : (ofOption none : Res ε α) = panic := rfl

end Res

/-- `2^64`, one more than `u64::MAX`. -/
abbrev u64Lim : Nat := 2 ^ 64

/-- `2^32`, one more than `u32::MAX`. -/
abbrev u32Lim : Nat := 2 ^ 32

/-- Rust `a + b` on `u64` in a build with overflow checks: panics on overflow. -/
def addU64 {ε : Type} (a b : Nat) : Res ε Nat := if a + b < u64Lim then .ok (a + b) else .panic

/-- Rust `a - b` on unsigned integers with overflow checks. -/
def subU {ε : Type} (a b : Nat) : Res ε Nat := if b ≤ a then .ok (a - b) else .panic

/-- Rust `a * b` on `u64` with overflow checks. -/
def mulU64 {ε : Type} (a b : Nat) : Res ε Nat := if a * b < u64Lim then .ok (a * b) else .panic

/-- Rust `a * b` on `u32` with overflow checks. -/
def mulU32 {ε : Type} (a b : Nat) : Res ε Nat := if a * b < u32Lim then .ok (a * b) else .panic

/-- Rust `a + b` on `u32` with overflow checks. -/
def addU32 {ε : Type} (a b : Nat) : Res ε Nat := if a + b < u32Lim then .ok (a + b) else .panic

/-- Rust `a / b` on unsigned integers: panics on a zero divisor. -/
def divU {ε : Type} (a b : Nat) : Res ε Nat := if b = 0 then .panic else .ok (a / b)

/-- Rust `a % b` on unsigned integers: panics on a zero divisor. -/
def modU {ε : Type} (a b : Nat) : Res ε Nat := if b = 0 then .panic else .ok (a % b)

/-- `u64::saturating_add`. -/
def satAdd64 (a b : Nat) : Nat := min (a + b) (u64Lim - 1)

/-- `u64::saturating_mul`. -/
def satMul64 (a b : Nat) : Nat := min (a * b) (u64Lim - 1)

/-- `u64::checked_add`. -/
def checkedAdd64 (a b : Nat) : Option Nat := if a + b < u64Lim then some (a + b) else none

/-- `u64::checked_sub`. -/
def checkedSub (a b : Nat) : Option Nat := if b ≤ a then some (a - b) else none

/-- `u64::checked_mul`. -/
def checkedMul64 (a b : Nat) : Option Nat := if a * b < u64Lim then some (a * b) else none

/-- Byte strings. -/
abbrev Bytes := List UInt8

end Verif
