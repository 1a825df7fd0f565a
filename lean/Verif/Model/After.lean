import Verif.Model.Reader
/-!
# What a run leaves in the reader

`Prog.exec` and `Prog.runScript` (Model/Reader.lean) give the data not consumed of
a run that succeeds. The versions here also say what is left in the reader when a
run fails, for code that goes on using it. They follow the same code; that they
agree with the others is proved (`Prog.runScriptAt_fst`, `Prog.execAt_fst`).

Readers use the default `read_exact` of `std::io::Read`, which hands bytes to the
buffer as they arrive and does not give them back. (`&[u8]` and `Cursor` have
their own `read_exact`: Model/Slice.lean.)
-/
namespace Dlhn

/-- `std::io::default_read_exact`, as `Script.readExact`, and the reader
afterwards. -/
def Script.readExactAt (n : Nat) (acc : List UInt8) (s : Script) :
    Except IoErr (List UInt8) × Script :=
  if hn : n = 0 then (.ok acc, s)
  else if hs : s = [] then (.error .unexpectedEof, [])
  else
    have _hlt := Script.read_weight (Nat.pos_of_ne_zero hn) s hs
    match _h : Script.read n s with
    | (.ok bs, s') =>
      if bs = [] then (.error .unexpectedEof, s')
      else Script.readExactAt (n - bs.length) (acc ++ bs) s'
    | (.interrupted, s') => Script.readExactAt n acc s'
    | (.fail e, s') => (.error e, s')
termination_by Script.weight s
decreasing_by all_goals (rw [_h] at _hlt; exact _hlt)

/-- `Take::read_to_end`, as `Script.takeToEnd`, and the reader afterwards. -/
def Script.takeToEndAt (size : Nat → Nat) (i : Nat) (n : Nat) (acc : List UInt8) (s : Script) :
    Except IoErr (List UInt8) × Script :=
  if hn : n = 0 then (.ok acc, s)
  else if hs : s = [] then (.ok acc, [])
  else
    have _hlt := Script.read_weight (m := min n (size i + 1)) (by omega) s hs
    match _h : Script.read (min n (size i + 1)) s with
    | (.ok bs, s') =>
      if bs = [] then (.ok acc, s')
      else Script.takeToEndAt size (i + 1) (n - bs.length) (acc ++ bs) s'
    | (.interrupted, s') => Script.takeToEndAt size (i + 1) n acc s'
    | (.fail e, s') => (.error e, s')
termination_by Script.weight s
decreasing_by all_goals (rw [_h] at _hlt; exact _hlt)

/-- Run a decoder on an arbitrary reader; the result and the reader afterwards. -/
def Prog.runScriptAt {ε α : Type} (t : Target) (size : Nat → Nat) :
    Prog ε α → Script → Outcome ε α × Script
  | .done o, s => (o, s)
  | .readExact n onErr k, s =>
    match Script.readExactAt n [] s with
    | (.ok bs, s') =>
      if h : n = bs.length then runScriptAt t size (k (h ▸ ⟨bs.toArray, rfl⟩)) s'
      else (.err (onErr .unexpectedEof), s') -- unreachable: the loop fills the buffer
    | (.error e, s') => (.err (onErr e), s')
  | .takeToEnd n onErr k, s =>
    match Script.takeToEndAt size 0 n [] s with
    | (.ok bs, s') => runScriptAt t size (k bs) s'
    | (.error e, s') => (.err (onErr e), s')
  | .alloc n k, s =>
    match t.allocate n with
    | some p => (.panic p, s)
    | none => runScriptAt t size k s

/-- Run a decoder on data `bs` that end there: the result, and the data left. A
read for which they do not suffice uses them up. -/
def Prog.execAt {ε α : Type} (t : Target) : Prog ε α → List UInt8 → Outcome ε α × List UInt8
  | .done o, bs => (o, bs)
  | .readExact n onErr k, bs =>
    if h : n ≤ bs.length then execAt t (k (takeVec bs h)) (bs.drop n)
    else (.err (onErr .unexpectedEof), [])
  | .takeToEnd n _ k, bs =>
    if n ≤ bs.length then execAt t (k (bs.take n)) (bs.drop n)
    else execAt t (k bs) []
  | .alloc n k, bs =>
    match t.allocate n with
    | some p => (.panic p, bs)
    | none => execAt t k bs

end Dlhn
