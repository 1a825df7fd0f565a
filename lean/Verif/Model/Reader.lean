import Verif.Model.Outcome
/-!
# Programs that read

A decoder is a tree of the calls it makes on its `std::io::Read`. Interpreting
the tree on a byte list gives the result of decoding a slice; interpreting it on
a script of reader events gives its result on an arbitrary reader.
-/
namespace Dlhn

/-- A decoder: the reader calls and explicit allocations it performs, in order.
`onErr` is what the caller makes of an `io::Error` of that call
(`.or(Err(Error::Read))` in dlhn/src/de.rs, `?` in dlhn/src/header/de.rs). -/
inductive Prog (ε α : Type) : Type where
  /-- Return. -/
  | done (o : Outcome ε α)
  /-- `reader.read_exact(&mut buf[..n])`. -/
  | readExact (n : Nat) (onErr : IoErr → ε) (k : Vector UInt8 n → Prog ε α)
  /-- `reader.take(n).read_to_end(..)`: at most `n` bytes, fewer only at the end
  of the data (dlhn/src/de.rs:224-228). -/
  | takeToEnd (n : Nat) (onErr : IoErr → ε) (k : List UInt8 → Prog ε α)
  /-- An explicit allocation of `bytes` bytes. -/
  | alloc (bytes : Nat) (k : Prog ε α)

namespace Prog

/-- Sequencing with `?`: stop at the first error or panic. -/
def bind {ε α β : Type} : Prog ε α → (α → Prog ε β) → Prog ε β
  | done (.ok a), f => f a
  | done (.err e), _ => done (.err e)
  | done (.panic p), _ => done (.panic p)
  | readExact n onErr k, f => readExact n onErr fun bs => bind (k bs) f
  | takeToEnd n onErr k, f => takeToEnd n onErr fun bs => bind (k bs) f
  | alloc n k, f => alloc n (bind k f)

/-- `Ok(a)`. -/
def pure {ε α : Type} (a : α) : Prog ε α := done (.ok a)

/-- `Err(e)`. -/
def fail {ε α : Type} (e : ε) : Prog ε α := done (.err e)

instance {ε : Type} : Monad (Prog ε) where
  pure := Prog.pure
  bind := Prog.bind

/-- `.map_err(f)` / `.or(Err(..))` around a whole call. -/
def mapErr {ε ε' α : Type} (f : ε → ε') : Prog ε α → Prog ε' α
  | done o => done (o.mapErr f)
  | readExact n onErr k => readExact n (fun e => f (onErr e)) fun bs => mapErr f (k bs)
  | takeToEnd n onErr k => takeToEnd n (fun e => f (onErr e)) fun bs => mapErr f (k bs)
  | alloc n k => alloc n (mapErr f k)

end Prog

/-- What a reader does once it has delivered its data: report end of file
(`Ok(0)`) or fail. -/
inductive Ending where
  | eof
  | fail (e : IoErr)
  deriving DecidableEq, Repr

/-- The error `read_exact` returns when the data end early. -/
def Ending.shortErr : Ending → IoErr
  | .eof => .unexpectedEof
  | .fail e => e

/-- The result of an explicit allocation request: `Vec::with_capacity` panics
above `isize::MAX` bytes, and the allocator aborts above what it can grant. -/
def Target.allocate (t : Target) (bytes : Nat) : Option PanicKind :=
  if t.isizeMax < bytes then some .capacityOverflow
  else if t.memLimit < bytes then some .allocFailure
  else none

/-- The first `n` bytes of a list that is long enough, as a fixed-size buffer. -/
def takeVec {n : Nat} (bs : List UInt8) (h : n ≤ bs.length) : Vector UInt8 n :=
  ⟨(bs.take n).toArray, by simp; omega⟩

namespace Prog

/-- Run a decoder on data `bs` after which the reader behaves like `fin`.
A success also returns the data not consumed. -/
def exec {ε α : Type} (t : Target) (fin : Ending) :
    Prog ε α → List UInt8 → Outcome ε (α × List UInt8)
  | done (.ok a), bs => .ok (a, bs)
  | done (.err e), _ => .err e
  | done (.panic p), _ => .panic p
  | readExact n onErr k, bs =>
    if h : n ≤ bs.length then exec t fin (k (takeVec bs h)) (bs.drop n)
    else .err (onErr fin.shortErr)
  | takeToEnd n onErr k, bs =>
    if n ≤ bs.length then exec t fin (k (bs.take n)) (bs.drop n)
    else match fin with
      | .eof => exec t fin (k bs) []
      | .fail e => .err (onErr e)
  | alloc n k, bs =>
    match t.allocate n with
    | some p => .panic p
    | none => exec t fin k bs

/-- Run a decoder on a byte slice (or file, or socket that is closed after
`bs`). -/
def run {ε α : Type} (t : Target) (p : Prog ε α) (bs : List UInt8) :
    Outcome ε (α × List UInt8) :=
  exec t .eof p bs

/-- The explicit allocation requests (in bytes) made by a run on `bs`, in order,
up to the first one that is not granted. -/
def requests {ε α : Type} (t : Target) (fin : Ending) : Prog ε α → List UInt8 → List Nat
  | done _, _ => []
  | readExact n _ k, bs =>
    if h : n ≤ bs.length then requests t fin (k (takeVec bs h)) (bs.drop n) else []
  | takeToEnd n _ k, bs =>
    if n ≤ bs.length then requests t fin (k (bs.take n)) (bs.drop n)
    else match fin with
      | .eof => requests t fin (k bs) []
      | .fail _ => []
  | alloc n k, bs =>
    match t.allocate n with
    | some _ => [n]
    | none => n :: requests t fin k bs

end Prog

/-! ## Arbitrary readers -/

/-- One observable step of a reader. `data []` is `Ok(0)`, i.e. end of file. -/
inductive Event where
  | data (chunk : List UInt8)
  | interrupted
  | fail (e : IoErr)
  deriving DecidableEq, Repr

/-- Everything a reader is going to do; after the script it reports end of file. -/
abbrev Script := List Event

/-- Result of one `Read::read` call. -/
inductive ReadRes where
  | ok (bs : List UInt8)
  | interrupted
  | fail (e : IoErr)
  deriving DecidableEq, Repr

/-- One `read(&mut buf[..m])` call: at most `m` bytes of the current chunk; what
does not fit stays for the next call. -/
def Script.read (m : Nat) : Script → ReadRes × Script
  | [] => (.ok [], [])
  | .interrupted :: s => (.interrupted, s)
  | .fail e :: s => (.fail e, s)
  | .data c :: s =>
    if c.length ≤ m then (.ok c, s) else (.ok (c.take m), .data (c.drop m) :: s)

/-- Size of a script; every read call with a non-empty buffer makes it smaller. -/
def Script.weight : Script → Nat
  | [] => 0
  | .data c :: s => c.length + 1 + weight s
  | _ :: s => 1 + weight s

theorem Script.read_weight {m : Nat} (hm : 0 < m) (s : Script) (hs : s ≠ []) :
    Script.weight (Script.read m s).2 < Script.weight s := by
  cases s with
  | nil => exact absurd rfl hs
  | cons e s =>
    cases e with
    | interrupted => simp [Script.read, Script.weight]
    | fail e => simp [Script.read, Script.weight]
    | data c =>
      simp only [Script.read]
      split
      · simp only [Script.weight]; omega
      · simp only [Script.weight, List.length_drop]; omega

/-- Result of a composite reader call: bytes and remaining script, or an error. -/
inductive IoResult where
  | ok (bs : List UInt8) (s : Script)
  | err (e : IoErr)
  deriving DecidableEq, Repr

/-- `std::io::default_read_exact`: loop until the buffer is full; `Interrupted`
is retried, `Ok(0)` is `UnexpectedEof`, other errors are returned. `acc` is the
part of the buffer already filled. -/
def Script.readExact (n : Nat) (acc : List UInt8) (s : Script) : IoResult :=
  if hn : n = 0 then .ok acc s
  else if hs : s = [] then .err .unexpectedEof
  else
    have _hlt := Script.read_weight (Nat.pos_of_ne_zero hn) s hs
    match _h : Script.read n s with
    | (.ok bs, s') =>
      if bs = [] then .err .unexpectedEof else Script.readExact (n - bs.length) (acc ++ bs) s'
    | (.interrupted, s') => Script.readExact n acc s'
    | (.fail e, _) => .err e
termination_by Script.weight s
decreasing_by all_goals (rw [_h] at _hlt; exact _hlt)

/-- `Take::read_to_end` (`std::io::default_read_to_end` over `take(n)`): read
until end of file or until `n` bytes have been read; `Interrupted` is retried.
The standard library chooses the buffer sizes; `size i + 1` is the size offered
at step `i`, an arbitrary positive number. -/
def Script.takeToEnd (size : Nat → Nat) (i : Nat) (n : Nat) (acc : List UInt8) (s : Script) :
    IoResult :=
  if hn : n = 0 then .ok acc s
  else if hs : s = [] then .ok acc []
  else
    have _hlt := Script.read_weight (m := min n (size i + 1)) (by omega) s hs
    match _h : Script.read (min n (size i + 1)) s with
    | (.ok bs, s') =>
      if bs = [] then .ok acc s' else Script.takeToEnd size (i + 1) (n - bs.length) (acc ++ bs) s'
    | (.interrupted, s') => Script.takeToEnd size (i + 1) n acc s'
    | (.fail e, _) => .err e
termination_by Script.weight s
decreasing_by all_goals (rw [_h] at _hlt; exact _hlt)

/-- Run a decoder on an arbitrary reader. -/
def Prog.runScript {ε α : Type} (t : Target) (size : Nat → Nat) :
    Prog ε α → Script → Outcome ε (α × Script)
  | .done (.ok a), s => .ok (a, s)
  | .done (.err e), _ => .err e
  | .done (.panic p), _ => .panic p
  | .readExact n onErr k, s =>
    match Script.readExact n [] s with
    | .ok bs s' =>
      if h : n = bs.length then runScript t size (k (h ▸ ⟨bs.toArray, rfl⟩)) s'
      else .err (onErr .unexpectedEof) -- unreachable: the loop fills the buffer
    | .err e => .err (onErr e)
  | .takeToEnd n onErr k, s =>
    match Script.takeToEnd size 0 n [] s with
    | .ok bs s' => runScript t size (k bs) s'
    | .err e => .err (onErr e)
  | .alloc n k, s =>
    match t.allocate n with
    | some p => .panic p
    | none => runScript t size k s

/-- The bytes a script delivers before its first end of file or failure. -/
def Script.bytes : Script → List UInt8
  | [] => []
  | .interrupted :: s => bytes s
  | .fail _ :: _ => []
  | .data c :: s => if c = [] then [] else c ++ bytes s

/-- How those bytes end. -/
def Script.ending : Script → Ending
  | [] => .eof
  | .interrupted :: s => ending s
  | .fail e :: _ => .fail e
  | .data c :: s => if c = [] then .eof else ending s

end Dlhn
