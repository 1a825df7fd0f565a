import Verif.Model.De
import Verif.Model.Ser
/-!
# Specification: programs connected by pipes

Any number of programs (threads, processes, machines) that serialize values into pipes and
deserialize values from pipes. Every pipe has one program that writes to it and one that reads
from it. Each program goes on at its own speed. A call of `write` takes as many bytes as there is
room for in the pipe, or fewer, and blocks while there is none; a call of `read` returns what is
there, or less, and blocks while there is nothing, unless the writing program has ended, when it
returns the end of the stream. `NetStep` has pipes that stay open when the reading program ends, so
that writing to them is no error; `PipeStep` has pipes that are closed then.
-/
namespace Dlhn.Spec

/-- What a program does next: end; serialize something into a pipe; or deserialize something from
a pipe. It goes on depending on the result. -/
inductive Act (S : Type) : Type 1 where
  | stop
  | send {ε : Type} (pipe : Nat) (p : WProg ε) (next : Except ε Unit → S)
  | recv {ε α : Type} (pipe : Nat) (p : Prog ε α) (next : Except ε α → S)

/-- Where a program is: between two actions; while serializing, with the calls that are left;
while deserializing, with the calls that are left and the bytes that the present call has got; or
it has panicked. -/
inductive Doing (S : Type) : Type 1 where
  | at (s : S)
  | sending {ε : Type} (pipe : Nat) (p : WProg ε) (next : Except ε Unit → S)
  | receiving {ε α : Type} (pipe : Nat) (p : Prog ε α) (got : List UInt8) (next : Except ε α → S)
  | panicked

namespace Doing

variable {S : Type}

/-- A call has returned, or has not. -/
def after {ε α : Type} (next : Except ε α → S) : Outcome ε α → Doing S
  | .ok a => .at (next (.ok a))
  | .err e => .at (next (.error e))
  | .panic _ => .panicked

/-- The pipe the program writes to, and what is left of the buffer. -/
def offers : Doing S → Option (Nat × List UInt8)
  | .sending c (.writeAll (b :: bs) _ _) _ => some (c, b :: bs)
  | _ => none

/-- `n` bytes have been written. -/
def wrote (n : Nat) : Doing S → Doing S
  | .sending c (.writeAll bs onErr k) next => .sending c (.writeAll (bs.drop n) onErr k) next
  | d => d

/-- The pipe the program reads from, and how many bytes the call still takes. -/
def needs : Doing S → Option (Nat × Nat)
  | .receiving c (.readExact n _ _) got _ =>
    if got.length < n then some (c, n - got.length) else none
  | .receiving c (.takeToEnd n _ _) got _ =>
    if got.length < n then some (c, n - got.length) else none
  | _ => none

/-- The bytes have been read. -/
def got (bs : List UInt8) : Doing S → Doing S
  | .receiving c p old next => .receiving c p (old ++ bs) next
  | d => d

/-- The end of the stream has been read. -/
def ended : Doing S → Doing S
  | .receiving _ (.readExact _ onErr _) _ next => .at (next (.error (onErr .unexpectedEof)))
  | .receiving c (.takeToEnd _ _ k) got next => .receiving c (k got) [] next
  | d => d

/-- The step of a program in which it uses no pipe, if that is what comes next. -/
def alone (t : Target) (act : S → Act S) : Doing S → Option (Doing S)
  | .at s => match act s with
    | .stop => none
    | .send c p next => some (.sending c p next)
    | .recv c p next => some (.receiving c p [] next)
  | .sending _ (.done o) next => some (after next o)
  | .sending c (.writeAll [] _ k) next => some (.sending c k next)
  | .sending _ (.writeAll (_ :: _) _ _) _ => none
  | .receiving _ (.done o) _ next => some (after next o)
  | .receiving c (.readExact n _ k) got next =>
    if h : got.length = n then some (.receiving c (k ⟨got.toArray, by simpa using h⟩) [] next)
    else none
  | .receiving c (.takeToEnd n _ k) got next =>
    if got.length = n then some (.receiving c (k got) [] next) else none
  | .receiving c (.alloc n k) got next =>
    match t.allocate n with
    | some _ => some .panicked
    | none => some (.receiving c k got next)
  | .panicked => none

/-- The program has ended. -/
def Over (act : S → Act S) : Doing S → Prop
  | .at s => act s = .stop
  | .panicked => True
  | _ => False

end Doing

/-- The programs, who writes to and who reads from which pipe, and how much the pipes hold: `none`
for a pipe that always has room. -/
structure Net (S : Type) where
  act : Nat → S → Act S
  writer : Nat → Nat
  reader : Nat → Nat
  room : Nat → Option Nat

/-- Every program uses only the pipes that are its own. -/
def Net.Wired {S : Type} (net : Net S) : Prop := ∀ i s,
  match net.act i s with
  | .stop => True
  | .send c _ _ => net.writer c = i
  | .recv c _ _ => net.reader c = i

/-- Where the programs are, and what is in the pipes. -/
structure NetState (S : Type) : Type 1 where
  doing : Nat → Doing S
  pipes : Nat → List UInt8

/-- Replace one. -/
def setAt.{u} {α : Type u} (f : Nat → α) (i : Nat) (x : α) : Nat → α :=
  fun j => if j = i then x else f j

/-- The pipe can hold that many bytes. -/
def HasRoom (room : Option Nat) (n : Nat) : Prop := ∀ m, room = some m → n ≤ m

/-- One step of one of the programs. -/
inductive NetStep {S : Type} (t : Target) (net : Net S) : NetState S → NetState S → Prop where
  | alone {x : NetState S} {d : Doing S} (i : Nat) (h : (x.doing i).alone t (net.act i) = some d) :
      NetStep t net x ⟨setAt x.doing i d, x.pipes⟩
  | write {x : NetState S} {c : Nat} {bs : List UInt8} (i n : Nat)
      (h : (x.doing i).offers = some (c, bs)) (h1 : 1 ≤ n) (h2 : n ≤ bs.length)
      (hr : HasRoom (net.room c) ((x.pipes c).length + n)) :
      NetStep t net x ⟨setAt x.doing i ((x.doing i).wrote n), setAt x.pipes c (x.pipes c ++ bs.take n)⟩
  | read {x : NetState S} {c m : Nat} (i n : Nat) (h : (x.doing i).needs = some (c, m))
      (h1 : 1 ≤ n) (h2 : n ≤ m) (hr : n ≤ (x.pipes c).length) :
      NetStep t net x
        ⟨setAt x.doing i ((x.doing i).got ((x.pipes c).take n)), setAt x.pipes c ((x.pipes c).drop n)⟩
  | ended {x : NetState S} {c m : Nat} (i : Nat) (h : (x.doing i).needs = some (c, m))
      (he : x.pipes c = []) (ho : (x.doing (net.writer c)).Over (net.act (net.writer c))) :
      NetStep t net x ⟨setAt x.doing i (x.doing i).ended, x.pipes⟩

/-- The write of a program has failed. -/
def Doing.broke {S : Type} (e : IoErr) : Doing S → Doing S
  | .sending _ (.writeAll _ onErr _) next => .at (next (.error (onErr e)))
  | d => d

/-- One step of one of the programs, where a pipe is closed when its reader has ended: then writing
to it fails; or, if `late`, some writes fail and others are accepted, as when the other end of a
connection is far away. -/
inductive PipeStep {S : Type} (t : Target) (net : Net S) (late : Bool) :
    NetState S → NetState S → Prop where
  | alone {x : NetState S} {d : Doing S} (i : Nat) (h : (x.doing i).alone t (net.act i) = some d) :
      PipeStep t net late x ⟨setAt x.doing i d, x.pipes⟩
  | write {x : NetState S} {c : Nat} {bs : List UInt8} (i n : Nat)
      (h : (x.doing i).offers = some (c, bs)) (h1 : 1 ≤ n) (h2 : n ≤ bs.length)
      (hr : HasRoom (net.room c) ((x.pipes c).length + n))
      (ho : late = true ∨ ¬ (x.doing (net.reader c)).Over (net.act (net.reader c))) :
      PipeStep t net late x
        ⟨setAt x.doing i ((x.doing i).wrote n), setAt x.pipes c (x.pipes c ++ bs.take n)⟩
  | broken {x : NetState S} {c : Nat} {bs : List UInt8} (i : Nat) (e : IoErr)
      (h : (x.doing i).offers = some (c, bs))
      (ho : (x.doing (net.reader c)).Over (net.act (net.reader c))) :
      PipeStep t net late x ⟨setAt x.doing i ((x.doing i).broke e), x.pipes⟩
  | read {x : NetState S} {c m : Nat} (i n : Nat) (h : (x.doing i).needs = some (c, m))
      (h1 : 1 ≤ n) (h2 : n ≤ m) (hr : n ≤ (x.pipes c).length) :
      PipeStep t net late x
        ⟨setAt x.doing i ((x.doing i).got ((x.pipes c).take n)), setAt x.pipes c ((x.pipes c).drop n)⟩
  | ended {x : NetState S} {c m : Nat} (i : Nat) (h : (x.doing i).needs = some (c, m))
      (he : x.pipes c = []) (ho : (x.doing (net.writer c)).Over (net.act (net.writer c))) :
      PipeStep t net late x ⟨setAt x.doing i (x.doing i).ended, x.pipes⟩

/-- A number of steps. -/
inductive Steps.{u} {X : Type u} (step : X → X → Prop) : Nat → X → X → Prop where
  | start {x : X} : Steps step 0 x x
  | step {n : Nat} {x y z : X} (h : Steps step n x y) (more : step y z) : Steps step (n + 1) x z

/-- A number of steps, of any of the programs in any order. -/
abbrev NetRun {S : Type} (t : Target) (net : Net S) : Nat → NetState S → NetState S → Prop :=
  Steps (NetStep t net)

/-- No program can go on: all have ended, or those that have not wait for each other. -/
def AtRest {S : Type} (t : Target) (net : Net S) (x : NetState S) : Prop := ¬ ∃ y, NetStep t net x y

/-- However it goes on from `x`, it ends in `z`: there is a bound on the number of steps, from
wherever one is `z` can still be reached, and no other place is an end. -/
def EndsIn.{u} {X : Type u} (step : X → X → Prop) (x z : X) : Prop :=
  ∃ most, ∀ l y, Steps step l x y →
    l ≤ most ∧ (∃ m, Steps step m y z) ∧ ((¬ ∃ y', step y y') ↔ y = z)

/-- Nothing is on its way to a program that has ended. -/
def Arrived {S : Type} (net : Net S) (x : NetState S) : Prop := ∀ c,
  (x.doing (net.reader c)).Over (net.act (net.reader c)) →
  x.pipes c = [] ∧ ∀ i bs, (x.doing i).offers ≠ some (c, bs)

/-- All programs are between two actions, and there is nothing in the pipes. -/
def between {S : Type} (s : Nat → S) : NetState S := ⟨fun i => .at (s i), fun _ => []⟩

/-! ## Whole values -/

/-- What `p` writes, `q` reads as `v`, whatever follows. -/
def Hears (t : Target) {ε δ α : Type} (p : WProg ε) (q : Prog δ α) (v : α) : Prop :=
  ∃ bs, p.exec = (bs, .ok ()) ∧ ∀ rest, Prog.run t q (bs ++ rest) = .ok (v, rest)

/-- One value goes from the program that sends it to the one that waits for it; or a program that
waits for a value learns that the one to send it has ended. -/
inductive ValueStep {S : Type} (t : Target) (net : Net S) : (Nat → S) → (Nat → S) → Prop where
  | pass {s : Nat → S} {ε δ α : Type} {c i j : Nat} {p : WProg ε} {q : Prog δ α}
      {sent : Except ε Unit → S} {heard : Except δ α → S} {v : α} (hne : i ≠ j)
      (hs : net.act i (s i) = .send c p sent) (hr : net.act j (s j) = .recv c q heard)
      (hv : Hears t p q v) :
      ValueStep t net s (setAt (setAt s i (sent (.ok ()))) j (heard (.ok v)))
  | closed {s : Nat → S} {δ α : Type} {c j : Nat} {q : Prog δ α} {heard : Except δ α → S} {e : δ}
      (hr : net.act j (s j) = .recv c q heard) (hs : net.act (net.writer c) (s (net.writer c)) = .stop)
      (hv : Prog.run t q [] = .err e) : ValueStep t net s (setAt s j (heard (.error e)))

/-- A number of such steps: a conversation. -/
inductive Talk {S : Type} (t : Target) (net : Net S) : Nat → (Nat → S) → (Nat → S) → Prop where
  | start {s : Nat → S} : Talk t net 0 s s
  | step {n : Nat} {s s' s'' : Nat → S} (h : Talk t net n s s') (more : ValueStep t net s' s'') :
      Talk t net (n + 1) s s''

/-! ## Two arrangements -/

/-- Where a client is (with the requests that are left and the answers so far), where a server is,
and what has gone wrong. -/
inductive Party where
  | asks (todo answers : List Val)
  | awaits (todo answers : List Val)
  | serves
  | answers (v : Val)
  | closed
  | failed

/-- Program 0 sends requests of type `ty` through pipe 0, each after it has received the answer to
the one before, and ends after the last answer. Program 1 receives requests until that fails, and
sends the answer `f v`, of type `uy`, to a request `v` through pipe 1. -/
def service (t : Target) (ty uy : Ty) (f : Val → Val) (room : Nat → Option Nat) : Net Party where
  act i s := match i, s with
    | 0, .asks (v :: vs) as => .send 0 (Ser.ser v) fun
      | .ok _ => .awaits vs as
      | .error _ => .failed
    | 0, .awaits vs as => .recv 1 (De.de t uy) fun
      | .ok a => .asks vs (as ++ [a])
      | .error _ => .failed
    | 1, .serves => .recv 0 (De.de t ty) fun
      | .ok v => .answers v
      | .error _ => .closed
    | 1, .answers v => .send 1 (Ser.ser (f v)) fun
      | .ok _ => .serves
      | .error _ => .failed
    | _, _ => .stop
  writer c := c
  reader c := 1 - c
  room := room

/-- Program 0 is a client, program 1 the server. -/
def parties (client server : Party) : Nat → Party
  | 0 => client
  | 1 => server
  | _ => .closed

/-- Where a program is that sends something and receives something. -/
inductive Peer where
  | start
  | sent
  | done (v : Val)
  | failed

/-- Programs 0 and 1 both first send a value (`v` through pipe 0, `w` through pipe 1) and then
receive the value of the other. -/
def exchange (t : Target) (ty uy : Ty) (v w : Val) (room : Nat → Option Nat) : Net Peer where
  act i s := match i, s with
    | 0, .start => .send 0 (Ser.ser v) fun
      | .ok _ => .sent
      | .error _ => .failed
    | 0, .sent => .recv 1 (De.de t uy) fun
      | .ok a => .done a
      | .error _ => .failed
    | 1, .start => .send 1 (Ser.ser w) fun
      | .ok _ => .sent
      | .error _ => .failed
    | 1, .sent => .recv 0 (De.de t ty) fun
      | .ok a => .done a
      | .error _ => .failed
    | _, _ => .stop
  writer c := c
  reader c := 1 - c
  room := room

/-- The two programs; there are no others. -/
def peers (a b : Peer) : Nat → Peer
  | 0 => a
  | 1 => b
  | _ => .failed

end Dlhn.Spec
