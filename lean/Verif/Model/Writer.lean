import Verif.Model.Outcome
/-!
# Programs that write

An encoder is the sequence of `write_all` calls it makes, followed by its
result; an encoder never reads anything back from its writer.
-/
namespace Dlhn

/-- An encoder: `write_all` calls in order, then the result. `onErr` is what the
caller makes of an `io::Error` (`.or(Err(Error::Write))` in dlhn/src/ser.rs, `?`
in dlhn/src/header/ser.rs). -/
inductive WProg (ε : Type) : Type where
  | done (o : Outcome ε Unit)
  | writeAll (bs : List UInt8) (onErr : IoErr → ε) (k : WProg ε)

namespace WProg

/-- `a?; b`. -/
def andThen {ε : Type} : WProg ε → WProg ε → WProg ε
  | done (.ok ()), q => q
  | done (.err e), _ => done (.err e)
  | done (.panic p), _ => done (.panic p)
  | writeAll bs f k, q => writeAll bs f (andThen k q)

/-- `Ok(())`. -/
def skip {ε : Type} : WProg ε := done (.ok ())

/-- What an encoder has written and returned when every write succeeds (a
`Vec<u8>`). -/
def exec {ε : Type} : WProg ε → List UInt8 × Outcome ε Unit
  | done o => ([], o)
  | writeAll bs _ k => (bs ++ (exec k).1, (exec k).2)

end WProg

/-- One observable step of a writer: accept up to `n` bytes (`accept 0` is
`Ok(0)`), report `Interrupted`, or fail. -/
inductive WEvent where
  | accept (n : Nat)
  | interrupted
  | fail (e : IoErr)
  deriving DecidableEq, Repr

/-- Everything a writer is going to do; after the script it accepts everything. -/
abbrev WScript := List WEvent

/-- `std::io::Write::write_all`: loop until the buffer is empty; `Interrupted`
is retried, `Ok(0)` is `WriteZero`, other errors are returned. Returns what
reached the sink, the error if any, and the remaining script. -/
def WScript.writeAll (bs : List UInt8) : WScript → List UInt8 × Option IoErr × WScript
  | [] => (bs, none, [])
  | ev :: s =>
    if bs = [] then ([], none, ev :: s)
    else match ev with
      | .interrupted => writeAll bs s
      | .fail e => ([], some e, s)
      | .accept 0 => ([], some .writeZero, s)
      | .accept (n + 1) =>
        let r := writeAll (bs.drop (n + 1)) s
        (bs.take (n + 1) ++ r.1, r.2)

/-- Run an encoder on an arbitrary writer. -/
def WProg.runScript {ε : Type} : WProg ε → WScript → List UInt8 × Outcome ε Unit
  | .done o, _ => ([], o)
  | .writeAll bs onErr k, s =>
    match WScript.writeAll bs s with
    | (out, some e, _) => (out, .err (onErr e))
    | (out, none, s') => (out ++ (runScript k s').1, (runScript k s').2)

/-- Run an encoder on a slice with `room` bytes left: std's `impl Write for &mut [u8]`, whose
`write_all` copies what there is room for and reports `WriteZero` if that was not
everything. -/
def WProg.runSlice {ε : Type} : WProg ε → Nat → List UInt8 × Outcome ε Unit
  | .done o, _ => ([], o)
  | .writeAll bs onErr k, room =>
    if bs.length ≤ room then
      (bs ++ (runSlice k (room - bs.length)).1, (runSlice k (room - bs.length)).2)
    else (bs.take room, .err (onErr .writeZero))

end Dlhn
