import Verif.Model.SerImpl
/-!
# Writers of any behaviour

A writer is anything that answers calls of `write`: its state and the buffer it is given
determine which answers are possible. Model/Writer.lean has writers that follow a script
instead.
-/
namespace Dlhn

/-- What `std::io::Write::write` returns: `Ok(n)`, `Err` of kind `Interrupted`, or
another error. -/
inductive WriteRes where
  | ok (n : Nat)
  | interrupted
  | fail (e : IoErr)
  deriving DecidableEq, Repr

/-- `step s bs r s'`: in state `s`, a `write` of the buffer `bs` may return `r` and leave the
writer in state `s'`. -/
abbrev WStep (σ : Type) := σ → List UInt8 → WriteRes → σ → Prop

/-- The contract of `write`: no more bytes are accepted than there are in the buffer.
(`write_all` panics on an answer that breaks it; this is not modelled, there is no run.) -/
def WStep.Lawful {σ : Type} (step : WStep σ) : Prop :=
  ∀ s bs n s', step s bs (.ok n) s' → n ≤ bs.length

/-- A call of `write`: the buffer and the answer. -/
abbrev WCall := List UInt8 × WriteRes

/-- `std::io::Write::write_all(bs)`: `write` of what is left until nothing is;
`Interrupted` is retried, `Ok(0)` is `WriteZero`, other errors are returned. The
calls it makes, and the error if there is one. -/
inductive WritesAll {σ : Type} (step : WStep σ) :
    List UInt8 → σ → List WCall → Option IoErr → σ → Prop where
  | empty (s : σ) : WritesAll step [] s [] none s
  | interrupted {bs s s' s'' cs r} : bs ≠ [] → step s bs .interrupted s' →
      WritesAll step bs s' cs r s'' → WritesAll step bs s ((bs, .interrupted) :: cs) r s''
  | zero {bs s s'} : bs ≠ [] → step s bs (.ok 0) s' →
      WritesAll step bs s [(bs, .ok 0)] (some .writeZero) s'
  | fail {bs s s' e} : bs ≠ [] → step s bs (.fail e) s' →
      WritesAll step bs s [(bs, .fail e)] (some e) s'
  | more {bs s s' s'' cs r n} : n + 1 ≤ bs.length → step s bs (.ok (n + 1)) s' →
      WritesAll step (bs.drop (n + 1)) s' cs r s'' →
      WritesAll step bs s ((bs, .ok (n + 1)) :: cs) r s''

/-- A run of an encoder (Model/Writer.lean) on such a writer: all its calls of `write`, and
the outcome. -/
inductive WRuns {σ ε : Type} (step : WStep σ) :
    WProg ε → σ → List WCall → Outcome ε Unit → σ → Prop where
  | done (o s) : WRuns step (.done o) s [] o s
  | writeAllErr {bs onErr k s cs e s'} : WritesAll step bs s cs (some e) s' →
      WRuns step (.writeAll bs onErr k) s cs (.err (onErr e)) s'
  | writeAll {bs onErr k s cs s' cs' o s''} : WritesAll step bs s cs none s' →
      WRuns step k s' cs' o s'' → WRuns step (.writeAll bs onErr k) s (cs ++ cs') o s''

/-- The same for `Serialize` implementations, which may go on after an error
(Model/SerImpl.lean). -/
inductive CRuns {σ : Type} (step : WStep σ) :
    WCode → σ → List WCall → Outcome SerErr Unit → σ → Prop where
  | done (o s) : CRuns step (.done o) s [] o s
  | writeAll {bs k s cs r s' cs' o s''} : WritesAll step bs s cs r s' →
      CRuns step (k r) s' cs' o s'' → CRuns step (.writeAll bs k) s (cs ++ cs') o s''

end Dlhn
