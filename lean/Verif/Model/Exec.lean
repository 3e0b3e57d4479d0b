/-!
# Execution results, panics and checked machine arithmetic

Shared vocabulary of the model.  Nothing here models one particular Rust function; it models the
behaviour of the Rust language primitives the code uses (debug-build semantics: a plain arithmetic
overflow, an oversized shift and a bad index all panic).
-/

namespace Poker

/-- The ways a Rust computation of this crate can fail to return normally. -/
inductive Panic
  /-- `a[i]` on a slice or array, with `i` out of range. -/
  | indexOutOfBounds
  /-- `map[&key]` with `key` absent (`Index` of `HashMap` / `phf::Map`). -/
  | missingKey
  /-- plain `+`, `-` or a shift whose amount is not below the bit width (debug builds). -/
  | arithOverflow
  /-- `debug_assert!(false)` (debug builds). -/
  | assertFailed
  /-- `unreachable!()`. -/
  | unreachable
  /-- `unwrap()` on an `Err`/`None`. -/
  | unwrapFailed
  /-- not a panic: the loop did not finish within the model's fuel (non-termination). -/
  | outOfFuel
  deriving DecidableEq, Repr

/-- A computation that either returns a value or panics. -/
abbrev Exec := Except Panic

instance {ε α : Type} [DecidableEq ε] [DecidableEq α] : DecidableEq (Except ε α)
  | .ok a, .ok b => if h : a = b then isTrue (h ▸ rfl) else isFalse (fun e => h (Except.ok.inj e))
  | .error a, .error b =>
    if h : a = b then isTrue (h ▸ rfl) else isFalse (fun e => h (Except.error.inj e))
  | .ok _, .error _ => isFalse (fun e => nomatch e)
  | .error _, .ok _ => isFalse (fun e => nomatch e)

/-- Strings are sequences of Unicode scalar values, in Rust as in Lean. -/
abbrev Str := List Char

/-- `debug_assert!(b)`. -/
def debugAssert (b : Bool) : Exec Unit := if b then .ok () else .error .assertFailed

/-- `slice[i]`. -/
def idx {α : Type} (l : List α) (i : Nat) : Exec α :=
  match l[i]? with
  | some a => .ok a
  | none => .error .indexOutOfBounds

/-- `slice[i] = x`. -/
def setIdx {α : Type} (l : List α) (i : Nat) (x : α) : Exec (List α) :=
  if i < l.length then .ok (l.set i x) else .error .indexOutOfBounds

/-- `a - b` on `usize`. -/
def usizeSub (a b : Nat) : Exec Nat :=
  if b ≤ a then .ok (a - b) else .error .arithOverflow

/-- `x << n`: panics (debug) when `n` is not below the width. -/
def shl {w : Nat} (x : BitVec w) (n : Nat) : Exec (BitVec w) :=
  if n < w then .ok (x <<< n) else .error .arithOverflow

/-- `x >> n` on a signed integer (arithmetic shift). -/
def sar {w : Nat} (x : BitVec w) (n : Nat) : Exec (BitVec w) :=
  if n < w then .ok (x.sshiftRight n) else .error .arithOverflow

/-- `a + b` on a signed integer. -/
def addSigned {w : Nat} (a b : BitVec w) : Exec (BitVec w) :=
  if a.saddOverflow b then .error .arithOverflow else .ok (a + b)

/-- `a + b` on an unsigned integer. -/
def addUnsigned {w : Nat} (a b : BitVec w) : Exec (BitVec w) :=
  if a.uaddOverflow b then .error .arithOverflow else .ok (a + b)

/-- `x as usize` for a signed `x` (sign extension to 64 bits, then reinterpretation). -/
def asUsize {w : Nat} (x : BitVec w) : Nat := (x.signExtend 64).toNat

/-- `x.trailing_zeros()`: the number of zero bits below the lowest one bit, the width for zero. -/
def trailingZeros {w : Nat} (x : BitVec w) : Nat :=
  ((List.range w).takeWhile (fun i => !x.getLsbD i)).length

/-- `x.wrapping_pow(n)`. -/
def wrappingPow {w : Nat} (x : BitVec w) : Nat → BitVec w
  | 0 => 1#w
  | n + 1 => wrappingPow x n * x

end Poker
