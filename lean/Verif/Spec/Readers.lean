import Verif.Spec.Seek
import Verif.Model.De
/-!
# Specification: several readers on one stream

Threads that read values from one file, socket or queue, without agreeing on whose turn it is. A
call of `read_exact` is not interrupted by another; nor (which is more than can be said of it) is
`take(n).read_to_end(..)`, with which texts and bytes are read.
-/
namespace Dlhn.Spec

/-- The readers, each with what it is doing and the values it has got so far, and the bytes that
nobody has read. -/
abbrev Sharing (ε α : Type) := List (Prog ε α × List α) × List UInt8

/-- One step of one of the readers. `p` reads one value; a reader that has got a value starts
again, one that has got an error stops. -/
inductive ReadStep {ε α : Type} (t : Target) (p : Prog ε α) : Sharing ε α → Sharing ε α → Prop where
  | call {rs : List (Prog ε α × List α)} {bs : List UInt8} {got : List α} {n : Nat}
      {onErr : IoErr → ε} {k : Vector UInt8 n → Prog ε α} (i : Nat)
      (h : rs[i]? = some (.readExact n onErr k, got)) (hn : n ≤ bs.length) :
      ReadStep t p (rs, bs) (rs.set i (k (takeVec bs hn), got), bs.drop n)
  | short {rs : List (Prog ε α × List α)} {bs : List UInt8} {got : List α} {n : Nat}
      {onErr : IoErr → ε} {k : Vector UInt8 n → Prog ε α} (i : Nat)
      (h : rs[i]? = some (.readExact n onErr k, got)) (hn : bs.length < n) :
      ReadStep t p (rs, bs) (rs.set i (.done (.err (onErr .unexpectedEof)), got), [])
  | upTo {rs : List (Prog ε α × List α)} {bs : List UInt8} {got : List α} {n : Nat}
      {onErr : IoErr → ε} {k : List UInt8 → Prog ε α} (i : Nat)
      (h : rs[i]? = some (.takeToEnd n onErr k, got)) :
      ReadStep t p (rs, bs) (rs.set i (k (bs.take n), got), bs.drop n)
  | alloc {rs : List (Prog ε α × List α)} {bs : List UInt8} {got : List α} {n : Nat}
      {k : Prog ε α} (i : Nat) (h : rs[i]? = some (.alloc n k, got)) (hn : t.allocate n = none) :
      ReadStep t p (rs, bs) (rs.set i (k, got), bs)
  | value {rs : List (Prog ε α × List α)} {bs : List UInt8} {got : List α} {a : α} (i : Nat)
      (h : rs[i]? = some (.done (.ok a), got)) :
      ReadStep t p (rs, bs) (rs.set i (p, got ++ [a]), bs)

/-- Any number of steps, of any of the readers. -/
inductive Shared {ε α : Type} (t : Target) (p : Prog ε α) : Sharing ε α → Sharing ε α → Prop where
  | start {s : Sharing ε α} : Shared t p s s
  | step {s s' s'' : Sharing ε α} (h : Shared t p s s') (more : ReadStep t p s' s'') :
      Shared t p s s''

/-- `k` readers that have not begun. -/
def readers {ε α : Type} (p : Prog ε α) (k : Nat) : List (Prog ε α × List α) :=
  List.replicate k (p, [])

/-- The values of reader number `i`, if value number `j` goes to reader number `who[j]`. -/
def dealt {α : Type} (vs : List α) (who : List Nat) (i : Nat) : List α :=
  ((vs.zip who).filter fun x => x.2 = i).map fun x => x.1

/-- Read `n` bytes by one call of `read_exact`, then decode the buffer:
`let mut buf = [0; n]; r.read_exact(&mut buf)?; T::deserialize(&mut Deserializer::new(&mut &buf[..]))`. -/
def fromBuffer (t : Target) {α : Type} (n : Nat) (p : Prog DeErr α) : Prog DeErr α :=
  .readExact n (fun _ => .read) fun buf =>
    .done ((Prog.run t p buf.toList).map fun x => x.1)

/-- The types whose values are read by one call of `read_exact`, and how many bytes it takes. -/
def oneCall : Ty → Option Nat
  | .bool => some 1
  | .u8 => some 1
  | .i8 => some 1
  | .f32 => some 4
  | .f64 => some 8
  | .newtypeStruct _ ty => oneCall ty
  | _ => none

end Dlhn.Spec
