import Verif.Spec.Network
/-!
# Specification: a pipeline

Programs in a row, like processes connected by `|` in a shell: the first sends values, each of the
following receives values until that fails, and sends for each what it makes of it, and the last
only receives.
-/
namespace Dlhn.Spec

variable {α : Type}

/-- Where a program of a pipeline is: the first with the values it has still to send; the others
waiting for a value, with those received so far; about to send what was made of the last one;
ended; or something has gone wrong. -/
inductive Station (α : Type) where
  | sends (todo : List α)
  | waits (got : List α)
  | holds (got : List α) (v : α)
  | over (got : List α)
  | failed

/-- Program 0 sends values through pipe 0. Program `i`, for `i` from 1 to `n`, receives values from
pipe `i - 1` and sends `f i v` through pipe `i` for each value `v`. Program `n + 1` receives values
from pipe `n`. `enc c` serializes the values that go through pipe `c`, and `dec c` deserializes
them. A program ends when receiving or sending fails. -/
def pipeline (n : Nat) (enc : Nat → α → WProg SerErr) (dec : Nat → Prog DeErr α)
    (f : Nat → α → α) (room : Nat → Option Nat) : Net (Station α) where
  act i s := match s with
    | .sends (v :: vs) =>
      if i = 0 then .send 0 (enc 0 v) fun
        | .ok _ => .sends vs
        | .error _ => .failed
      else .stop
    | .waits got =>
      if 1 ≤ i ∧ i ≤ n + 1 then .recv (i - 1) (dec (i - 1)) fun
        | .ok v => if i = n + 1 then .waits (got ++ [v]) else .holds (got ++ [v]) (f i v)
        | .error _ => .over got
      else .stop
    | .holds got v =>
      if 1 ≤ i ∧ i ≤ n then .send i (enc i v) fun
        | .ok _ => .waits got
        | .error _ => .failed
      else .stop
    | _ => .stop
  writer c := c
  reader c := c + 1
  room := room

/-- What has become of a value of program 0 when program `k + 1` receives it. -/
def through (f : Nat → α → α) : Nat → α → α
  | 0, v => v
  | k + 1, v => f (k + 1) (through f k v)

/-- At the beginning all but the first wait for values. -/
def pipelineStart (n : Nat) (vs : List α) (i : Nat) : Station α :=
  if i = 0 then .sends vs else if i ≤ n + 1 then .waits [] else .over []

/-- At the end the first has sent all values, and every other one has received what the programs
before it have made of all the values, in their order. -/
def pipelineEnd (n : Nat) (f : Nat → α → α) (vs : List α) (i : Nat) : Station α :=
  if i = 0 then .sends [] else if i ≤ n + 1 then .over (vs.map (through f (i - 1))) else .over []

end Dlhn.Spec
