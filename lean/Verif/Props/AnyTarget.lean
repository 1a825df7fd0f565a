import Verif.Proof.Settled
import Verif.Props.Buffered
import Verif.Props.Body
import Verif.Props.DeriveIo
import Verif.Props.Rec
import Verif.Props.Visit
/-!
# C24, C74, C84, C87, C113 on every target

The theorems on arbitrary readers in the other files are for 64-bit targets. Here are those
for every target, for readers that deliver non-empty chunks, with interruptions, until their
end: on 32-bit targets a decoder can go on after the end of the file (C59), so that a reader
that reports it and then delivers more is out of scope.
-/
namespace Dlhn.Props

open Spec hiding variantFields
open De Derive Rec

private theorem anyTarget_run {ε α : Type} (t : Target) (size : Nat → Nat) (p : Prog ε α)
    (s : Script) (hs : ∀ ev ∈ s, ev ≠ .data []) (he : s.ending = .eof) :
    (Prog.runScript t size p s).map (fun (v, s') => (v, s'.bytes)) = Prog.run t p s.bytes := by
  have h := Prog.runScript_settled t size p s hs
  rw [he] at h
  show _ = Prog.exec t .eof p s.bytes
  cases hr : Prog.exec t .eof p s.bytes with
  | ok a =>
    rw [hr] at h
    obtain ⟨s', h1, h2, -⟩ := h
    rw [h1, Outcome.map]; simp only [h2]
  | err e => rw [hr] at h; simp only at h; rw [h]; rfl
  | panic q => rw [hr] at h; simp only at h; rw [h]; rfl

private theorem anyTarget_same {ε α : Type} (t : Target) (size size' : Nat → Nat) (p : Prog ε α)
    (s s' : Script) (hs : ∀ ev ∈ s, ev ≠ .data []) (hs' : ∀ ev ∈ s', ev ≠ .data [])
    (hb : s.bytes = s'.bytes) (he : s.ending = s'.ending) :
    (Prog.runScript t size p s).map (fun (v, r) => (v, r.bytes))
      = (Prog.runScript t size' p s').map (fun (v, r) => (v, r.bytes)) := by
  have h := Prog.runScript_settled t size p s hs
  have h' := Prog.runScript_settled t size' p s' hs'
  rw [hb, he] at h
  cases hr : Prog.exec t s'.ending p s'.bytes with
  | ok a =>
    rw [hr] at h h'
    obtain ⟨r, h1, h2, -⟩ := h
    obtain ⟨r', h3, h4, -⟩ := h'
    rw [h1, h3, Outcome.map, Outcome.map]; simp only [h2, h4]
  | err e => rw [hr] at h h'; simp only at h h'; rw [h, h']
  | panic q => rw [hr] at h h'; simp only at h h'; rw [h, h']

/-- Types. -/
theorem C24_any_target (t : Target) (ty : Ty) (size : Nat → Nat) (s : Script)
    (hs : ∀ ev ∈ s, ev ≠ .data []) (he : s.ending = .eof) :
    (Prog.runScript t size (de t ty) s).map (fun (v, s') => (v, s'.bytes))
      = Prog.run t (de t ty) s.bytes :=
  anyTarget_run t size _ s hs he

/-- Readers that end with a failure: the chunks do not matter. -/
theorem C24_any_target_failing (t : Target) (ty : Ty) (size size' : Nat → Nat) (s s' : Script)
    (hs : ∀ ev ∈ s, ev ≠ .data []) (hs' : ∀ ev ∈ s', ev ≠ .data [])
    (hb : s.bytes = s'.bytes) (he : s.ending = s'.ending) :
    (Prog.runScript t size (de t ty) s).map (fun (v, r) => (v, r.bytes))
      = (Prog.runScript t size' (de t ty) s').map (fun (v, r) => (v, r.bytes)) :=
  anyTarget_same t size size' _ s s' hs hs' hb he

/-- Dynamic values. -/
theorem C24_any_target_body (t : Target) (mode : BuildMode) (size : Nat) (h : Header)
    (bufs : Nat → Nat) (s : Script) (hs : ∀ ev ∈ s, ev ≠ .data []) (he : s.ending = .eof) :
    (Prog.runScript t bufs (Body.de t mode size h) s).map (fun (b, s') => (b, s'.bytes))
      = Prog.run t (Body.de t mode size h) s.bytes :=
  anyTarget_run t bufs _ s hs he

/-- Derived types. -/
theorem C74_any_target (t : Target) (mode : BuildMode) (env : Env) (T : RTy) (size : Nat → Nat)
    (s : Script) (hs : ∀ ev ∈ s, ev ≠ .data []) (he : s.ending = .eof) :
    (Prog.runScript t size (deTy t mode env T) s).map (fun (v, s') => (v, s'.bytes))
      = Prog.run t (deTy t mode env T) s.bytes :=
  anyTarget_run t size _ s hs he

/-- Recursive types. -/
theorem C84_any_target (t : Target) (defs : Defs) (n : String) (d : Nat) (size : Nat → Nat)
    (s : Script) (hs : ∀ ev ∈ s, ev ≠ .data []) (he : s.ending = .eof) :
    (Prog.runScript t size (deNamed t defs d n) s).map (fun (v, s') => (v, s'.bytes))
      = Prog.run t (deNamed t defs d n) s.bytes :=
  anyTarget_run t size _ s hs he

/-- Hand-written implementations. -/
theorem C87_any_target (t : Target) {α : Type} (i : Impl α) (size : Nat → Nat) (s : Script)
    (hs : ∀ ev ∈ s, ev ≠ .data []) (he : s.ending = .eof) :
    (Prog.runScript t size (i.run t) s).map (fun (v, s') => (v, s'.bytes))
      = Prog.run t (i.run t) s.bytes :=
  anyTarget_run t size _ s hs he

/-- Through a `BufReader`. -/
theorem C113_any_target (t : Target) (ty : Ty) (cap : Nat) (size : Nat → Nat) (b : BufR)
    (hs : ∀ ev ∈ b.rest, ev ≠ .data []) (he : b.rest.ending = .eof) :
    (Prog.runBuf t cap size (de t ty) b).map (fun (v, b') => (v, b'.buf ++ b'.rest.bytes))
      = Prog.run t (de t ty) (b.buf ++ b.rest.bytes) := by
  have h := Prog.runBuf_settled t cap size (de t ty) b hs
  rw [show b.ending = .eof from he] at h
  show _ = Prog.exec t .eof (de t ty) b.bytes
  cases hr : Prog.exec t .eof (de t ty) b.bytes with
  | ok a =>
    rw [hr] at h
    obtain ⟨b', h1, h2, -⟩ := h
    rw [h1, Outcome.map]; exact congrArg (fun r => Outcome.ok (a.1, r)) h2
  | err e => rw [hr] at h; simp only at h; rw [h]; rfl
  | panic q => rw [hr] at h; simp only at h; rw [h]; rfl

/-- The readers in question. -/
example : (∀ ev ∈ ([.data [1], .interrupted, .data [2, 3]] : Script), ev ≠ .data []) ∧
    Script.ending [.data [1], .interrupted, .data [2, 3]] = .eof ∧
    Script.bytes [.data [1], .interrupted, .data [2, 3]] = [1, 2, 3] := by
  refine ⟨by simp, by decide, by decide⟩

end Dlhn.Props
