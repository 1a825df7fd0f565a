import Verif.Model.SerImpl
import Verif.Model.Visit
/-!
# Specification: a pair of `Serialize` and `Deserialize` implementations

What such implementations do to a `Vec<u8>` and with a reader over a slice.
-/
namespace Dlhn

/-- The implementation writes `enc` and returns `Ok(())`. -/
def Writes (p : SerImpl) (enc : List UInt8) : Prop := p.run.exec = (enc, .ok ())

/-- Before anything else in the stream, the implementation reads `enc`, and nothing more, as
the value `a`. -/
def Reads (t : Target) {α : Type} (i : Impl α) (enc : List UInt8) (a : α) : Prop :=
  ∀ rest, Prog.run t (i.run t) (enc ++ rest) = .ok (a, rest)

/-- Before anything else in the stream, the implementation returns `Err(e)` for `enc`. -/
def Refuses (t : Target) {α : Type} (i : Impl α) (enc : List UInt8) (e : DeErr) : Prop :=
  ∀ rest, Prog.run t (i.run t) (enc ++ rest) = .err e

/-- What `p` writes, `i` reads as `a`. -/
def ThereAndBack (t : Target) {α : Type} (p : SerImpl) (i : Impl α) (a : α) : Prop :=
  ∃ enc, Writes p enc ∧ Reads t i enc a

/-- The implementation writes `enc` and returns `Err(e)`. -/
def Fails (p : SerImpl) (enc : List UInt8) (e : SerErr) : Prop := p.run.exec = (enc, .err e)

/-- On every writer: the outcome is that on a `Vec<u8>`, or the writer failed, the result is
`Err(Write)` and the writer holds part of what a `Vec<u8>` would. -/
def ReportsWriter (p : SerImpl) : Prop :=
  ∀ s : WScript, p.run.runScript s = p.run.exec ∨
    ((p.run.runScript s).2 = .err .write ∧ (p.run.runScript s).1 <+: p.run.exec.1 ∧
      (p.run.runScript s).1 ≠ p.run.exec.1)

end Dlhn
