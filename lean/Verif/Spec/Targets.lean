import Verif.Spec.After
import Verif.Model.De
/-!
# Specification: data that were written are recognised
-/
namespace Dlhn

/-- `enc` is recognised as `v`, wherever it comes from and however it arrives. -/
structure Recognised {α : Type} (t : Target) (p : Prog DeErr α) (enc : List UInt8) (v : α) :
    Prop where
  /-- Every reader that delivers `enc`, in whatever chunks, followed by anything or
  by a failure, yields `v` and is left right behind it. -/
  whole : ∀ (size : Nat → Nat) (s : Script) (more : List UInt8), s.bytes = enc ++ more →
    ∃ s', p.runScriptAt t size s = (.ok v, s') ∧ s'.bytes = more ∧ s'.ending = s.ending ∧
      s'.after = s.after
  /-- Every reader that ends or fails earlier yields `Err(Read)` and has been used up
  to there. -/
  cut : ∀ (size : Nat → Nat) (s : Script), s.bytes <+: enc → s.bytes ≠ enc →
    p.runScriptAt t size s = (.err .read, s.after)
  /-- The same for a byte slice. -/
  slice : ∀ pre, pre <+: enc → pre ≠ enc → Prog.run t p pre = .err .read

end Dlhn
