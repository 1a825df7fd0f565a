import Verif.Model.After
/-!
# Specification: readers that go on
-/
namespace Dlhn

/-- A reader that delivers its data in any chunks, with interruptions, and then
reports end of file for good: it has no other error, and no end of file before
the end. -/
def Script.Clean (s : Script) : Prop :=
  ∀ ev ∈ s, ev = .interrupted ∨ ∃ c, c ≠ [] ∧ ev = .data c

/-- What a reader goes on to do after its first end of file or failure, for callers
that try again. -/
def Script.after : Script → Script
  | [] => []
  | .interrupted :: s => after s
  | .fail _ :: s => s
  | .data c :: s => if c = [] then s else after s

/-- Where a decoder leaves a reader `s`, whatever its outcome `o`, `s'` being the
reader afterwards. One of:

* it stopped after `used`, the first bytes of the data, and the rest is still there.
  On every reader whose data begin with `used` it has the same outcome and stops at
  the same place; on every reader whose data are a shorter part of `used` it fails
  with the error for missing data.
* the data did not suffice: it failed with that error after using up the data and
  taking note of their end or of the failure of the reader, and so it does on every
  reader that delivers no more of them. -/
def StopsAt {ε α : Type} (t : Target) (missing : IoErr → ε) (p : Prog ε α) (s : Script)
    (o : Outcome ε α) (s' : Script) : Prop :=
  (∃ used, s.bytes = used ++ s'.bytes ∧ s'.ending = s.ending ∧
    (∀ size r more, r.bytes = used ++ more → ∃ r', p.runScriptAt t size r = (o, r') ∧
      r'.bytes = more ∧ r'.ending = r.ending) ∧
    ∀ size r, r.bytes <+: used → r.bytes ≠ used →
      p.runScriptAt t size r = (.err (missing r.ending.shortErr), r.after)) ∨
  (o = .err (missing s.ending.shortErr) ∧ s' = s.after ∧
    ∀ size r, r.bytes <+: s.bytes →
      p.runScriptAt t size r = (.err (missing r.ending.shortErr), r.after))

end Dlhn
