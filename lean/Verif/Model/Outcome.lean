/-!
# Results, panics and the target machine

Rust functions of this crate return `Result<_, _>` or panic/abort. Both are
explicit values here, so "never panics" is a statement about the model.
-/
namespace Dlhn

/-- Why a call did not return. -/
inductive PanicKind where
  /-- `todo!()` (dlhn/src/de.rs:66, 207, 243, 381). -/
  | todo
  /-- Arithmetic overflow in a build with overflow checks
  (e.g. dlhn/src/date.rs:40-41, 61-66). -/
  | overflow
  /-- `capacity overflow` panic of `Vec::with_capacity`
  (dlhn/src/body/mod.rs:109, dlhn/src/header/de.rs:53). -/
  | capacityOverflow
  /-- The allocator refuses the request: `handle_alloc_error` aborts. -/
  | allocFailure
  /-- The call stack is exhausted (dlhn/src/header/de.rs recursion). -/
  | stackOverflow
  /-- `time`'s `OffsetDateTime + Duration` leaves the supported range
  (dlhn/src/date_time.rs:28, dlhn/src/format/date_time.rs:37). -/
  | timeRange
  /-- Not a panic: the call does not terminate (a loop ran out of the fuel that
  makes its model total). Proved unreachable wherever it occurs. -/
  | hang
  deriving DecidableEq, Repr

/-- Result of a call: `Ok`, `Err`, or no return. -/
inductive Outcome (ε α : Type) where
  | ok (a : α)
  | err (e : ε)
  | panic (p : PanicKind)
  deriving DecidableEq, Repr

/-- `std::io::ErrorKind`, as far as the crate distinguishes kinds. `other`
stands for all remaining kinds, told apart by a code. -/
inductive IoErr where
  | unexpectedEof
  | invalidData
  | writeZero
  | other (code : Nat)
  deriving DecidableEq, Repr

/-- Width of `usize` on the target. -/
inductive PtrWidth where
  | w32
  | w64
  deriving DecidableEq, Repr

/-- Number of bits of `usize`. -/
def PtrWidth.bits : PtrWidth → Nat
  | .w32 => 32
  | .w64 => 64

/-- The machine a decoder runs on: pointer width and the largest single
allocation the allocator grants. -/
structure Target where
  ptr : PtrWidth
  memLimit : Nat
  deriving DecidableEq, Repr

/-- `x as usize` for `x : u64`. -/
def Target.asUsize (t : Target) (x : UInt64) : Nat := x.toNat % 2 ^ t.ptr.bits

/-- `isize::MAX`, the largest allocation Rust's allocation API admits. -/
def Target.isizeMax (t : Target) : Nat := 2 ^ (t.ptr.bits - 1) - 1

/-- Whether the build has overflow checks (`debug`) or wraps (`release`). -/
inductive BuildMode where
  | debug
  | release
  deriving DecidableEq, Repr

namespace Outcome

/-- Apply a function to the `Ok` value (`Result::map`). -/
def map {ε α β : Type} (f : α → β) : Outcome ε α → Outcome ε β
  | ok a => ok (f a)
  | err e => err e
  | panic p => panic p

/-- `Result::map_err` (also models `.or(Err(..))`). -/
def mapErr {ε ε' α : Type} (f : ε → ε') : Outcome ε α → Outcome ε' α
  | ok a => ok a
  | err e => err (f e)
  | panic p => panic p

/-- `Ok` or `Err`: the call returned. -/
def returns {ε α : Type} : Outcome ε α → Prop
  | ok _ => True
  | err _ => True
  | panic _ => False

end Outcome
end Dlhn
