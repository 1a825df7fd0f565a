import Verif.Model.AnyReader
import Verif.Model.De
/-!
# Specification: the answers of `read` calls
-/
namespace Dlhn

/-- The bytes handed over by `read` calls with these answers. -/
def handed : List ReadRes → List UInt8
  | [] => []
  | .ok bs :: cs => bs ++ handed cs
  | .interrupted :: cs => handed cs
  | .fail _ :: cs => handed cs

/-- The answers that end the data: `Ok(0)`, and an error other than `Interrupted`. -/
def ReadRes.ends : ReadRes → Option Ending
  | .ok [] => some .eof
  | .ok (_ :: _) => none
  | .interrupted => none
  | .fail e => some (.fail e)

/-- The step of a script (Model/Reader.lean) that gives this answer. -/
def ReadRes.event : ReadRes → Event
  | .ok bs => .data bs
  | .interrupted => .interrupted
  | .fail e => .fail e

/-- A reader that always answers, and is not interrupted again and again without end. -/
structure RStep.Live {σ : Type} (step : RStep σ) : Prop where
  answers : ∀ s m, 0 < m → ∃ r s', step s m r s'
  calm : ∃ patience : σ → Nat, ∀ s m s', step s m .interrupted s' → patience s' < patience s

/-- The outcome `o` of a run whose `read` calls had the answers `cs` follows from the bytes
handed over: it is what decoding just these bytes gives, none left; and either it is
what decoding gives whatever comes behind them, or it is `Err(Read)`, because the last
`read` returned `Ok(0)` or an error. -/
def Explained {α : Type} (t : Target) (p : Prog DeErr α) (cs : List ReadRes)
    (o : Outcome DeErr α) : Prop :=
  Prog.run t p (handed cs) = o.map (fun v => (v, [])) ∧
  ((∀ more, Prog.run t p (handed cs ++ more) = o.map (fun v => (v, more))) ∨
    (o = .err .read ∧ ∃ c, cs.getLast? = some c ∧ c.ends ≠ none))

end Dlhn
