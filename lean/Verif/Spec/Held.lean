import Verif.Spec.Network
/-!
# Specification: conversations in which pipes hold values

As in `ValueStep`, programs hand whole values to each other; but a program can also put a value into
a pipe that has room for all of it, and go on, and another can take it from there later.
-/
namespace Dlhn.Spec

/-- All programs are between two actions, and the pipes hold what they hold. -/
def holding {S : Type} (s : Nat → S) (pipes : Nat → List UInt8) : NetState S :=
  ⟨fun i => .at (s i), pipes⟩

/-- A value is put into a pipe that has room for it; or the first value in a pipe is taken out; or a
value goes through an empty pipe to a program that waits for it; or a program that waits for a value
learns that nothing is left and the one to send it has ended. -/
inductive HeldStep {S : Type} (t : Target) (net : Net S) :
    (Nat → S) × (Nat → List UInt8) → (Nat → S) × (Nat → List UInt8) → Prop where
  | put {s : Nat → S} {pipes : Nat → List UInt8} {ε : Type} {c i : Nat} {p : WProg ε}
      {sent : Except ε Unit → S} {bs : List UInt8} (hs : net.act i (s i) = .send c p sent)
      (hp : p.exec = (bs, .ok ())) (hr : HasRoom (net.room c) ((pipes c).length + bs.length)) :
      HeldStep t net (s, pipes) (setAt s i (sent (.ok ())), setAt pipes c (pipes c ++ bs))
  | take {s : Nat → S} {pipes : Nat → List UInt8} {δ α : Type} {c j : Nat} {q : Prog δ α}
      {heard : Except δ α → S} {v : α} {bs left : List UInt8}
      (hr : net.act j (s j) = .recv c q heard) (hx : pipes c = bs ++ left)
      (hv : ∀ rest, Prog.run t q (bs ++ rest) = .ok (v, rest)) :
      HeldStep t net (s, pipes) (setAt s j (heard (.ok v)), setAt pipes c left)
  | pass {s : Nat → S} {pipes : Nat → List UInt8} {ε δ α : Type} {c i j : Nat} {p : WProg ε}
      {q : Prog δ α} {sent : Except ε Unit → S} {heard : Except δ α → S} {v : α} (hne : i ≠ j)
      (hx : pipes c = []) (hs : net.act i (s i) = .send c p sent)
      (hr : net.act j (s j) = .recv c q heard) (hv : Hears t p q v) :
      HeldStep t net (s, pipes) (setAt (setAt s i (sent (.ok ()))) j (heard (.ok v)), pipes)
  | closed {s : Nat → S} {pipes : Nat → List UInt8} {δ α : Type} {c j : Nat} {q : Prog δ α}
      {heard : Except δ α → S} {e : δ} (hx : pipes c = []) (hr : net.act j (s j) = .recv c q heard)
      (hs : net.act (net.writer c) (s (net.writer c)) = .stop) (hv : Prog.run t q [] = .err e) :
      HeldStep t net (s, pipes) (setAt s j (heard (.error e)), pipes)

/-! ## An arrangement -/

/-- Where a client is (with the requests that are left, the number of answers that it has to get,
and the answers so far), where a server is, and what has gone wrong. -/
inductive Batch where
  | client (todo : List Val) (open_ : Nat) (answers : List Val)
  | serves
  | answers (v : Val)
  | closed
  | failed

/-- Program 0 sends all its requests of type `ty` through pipe 0 and then receives the answers.
Program 1 is the server of `service`. -/
def batch (t : Target) (ty uy : Ty) (f : Val → Val) (room : Nat → Option Nat) : Net Batch where
  act i s := match i, s with
    | 0, .client (v :: vs) n as => .send 0 (Ser.ser v) fun
      | .ok _ => .client vs (n + 1) as
      | .error _ => .failed
    | 0, .client [] (n + 1) as => .recv 1 (De.de t uy) fun
      | .ok a => .client [] n (as ++ [a])
      | .error _ => .failed
    | 1, .serves => .recv 0 (De.de t ty) fun
      | .ok v => .answers v
      | .error _ => .closed
    | 1, .answers v => .send 1 (Ser.ser (f v)) fun
      | .ok _ => .serves
      | .error _ => .failed
    | _, _ => .stop
  writer c := c
  reader c := 1 - c
  room := room

/-- Program 0 is the client, program 1 the server. -/
def batchers (client server : Batch) : Nat → Batch
  | 0 => client
  | 1 => server
  | _ => .closed

end Dlhn.Spec
