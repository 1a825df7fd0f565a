import Verif.Model.Reader
/-!
# Decoders on any `std::io::Read`

A reader is anything that answers `read` calls: a set `σ` of states and a relation
saying which answers a call may have in which state, and in which state the reader
is afterwards. It may be endless, nondeterministic (threads, signals, networks),
and may answer differently depending on the size of the buffer it is given.

The relations below are the code of the standard library and of dlhn/src/de.rs,
step by step. Each records the answers of the `read` calls that were made.
-/
namespace Dlhn

variable {σ ε α : Type}

/-- `step s m r s'`: in state `s` a `read(&mut buf[..m])` may return `r` and leave the
reader in state `s'`. -/
abbrev RStep (σ : Type) := σ → Nat → ReadRes → σ → Prop

/-- What `std::io::Read::read` guarantees: no more bytes than fit in the buffer. (A reader
that breaks this makes the standard library panic; that is not modelled.) -/
def RStep.Lawful (step : RStep σ) : Prop :=
  ∀ s m bs s', step s m (.ok bs) s' → bs.length ≤ m

/-- `std::io::default_read_exact` with `n` bytes of the buffer to go and `acc` already in
it: the answers of the `read` calls, the result, and the reader afterwards. (The
`read_exact` of `&[u8]` and `Cursor` is in Model/Slice.lean.) -/
inductive ReadsExact (step : RStep σ) :
    Nat → List UInt8 → σ → List ReadRes → Except IoErr (List UInt8) → σ → Prop
  /-- The buffer is full. -/
  | full (acc : List UInt8) (s : σ) : ReadsExact step 0 acc s [] (.ok acc) s
  /-- `Ok(0) => break`, and then `Err(UnexpectedEof)`. -/
  | eof {n : Nat} {acc : List UInt8} {s s' : σ} (hn : 0 < n) (h : step s n (.ok []) s') :
      ReadsExact step n acc s [.ok []] (.error .unexpectedEof) s'
  /-- `Ok(k) => buf = &mut buf[k..]`. -/
  | more {n : Nat} {acc bs : List UInt8} {s s' s'' : σ} {cs : List ReadRes}
      {r : Except IoErr (List UInt8)} (hn : 0 < n) (h : step s n (.ok bs) s') (hb : bs ≠ [])
      (hr : ReadsExact step (n - bs.length) (acc ++ bs) s' cs r s'') :
      ReadsExact step n acc s (.ok bs :: cs) r s''
  /-- `Err(e) if e.is_interrupted() => continue`. -/
  | interrupted {n : Nat} {acc : List UInt8} {s s' s'' : σ} {cs : List ReadRes}
      {r : Except IoErr (List UInt8)} (hn : 0 < n) (h : step s n .interrupted s')
      (hr : ReadsExact step n acc s' cs r s'') :
      ReadsExact step n acc s (.interrupted :: cs) r s''
  /-- `Err(e) => return Err(e)`. -/
  | fail {n : Nat} {acc : List UInt8} {s s' : σ} {e : IoErr} (hn : 0 < n)
      (h : step s n (.fail e) s') : ReadsExact step n acc s [.fail e] (.error e) s'

/-- `reader.take(n).read_to_end(..)` (dlhn/src/de.rs:224-228, std's
`default_read_to_end`), `acc` being what was read already. The standard library
offers buffers of any sizes `m` it likes. -/
inductive ReadsToEnd (step : RStep σ) :
    Nat → List UInt8 → σ → List ReadRes → Except IoErr (List UInt8) → σ → Prop
  /-- The limit is reached. -/
  | full (acc : List UInt8) (s : σ) : ReadsToEnd step 0 acc s [] (.ok acc) s
  /-- `Ok(0) => return Ok(..)`. -/
  | eof {n m : Nat} {acc : List UInt8} {s s' : σ} (hn : 0 < n) (hm : 0 < m)
      (h : step s (min n m) (.ok []) s') : ReadsToEnd step n acc s [.ok []] (.ok acc) s'
  /-- Some bytes. -/
  | more {n m : Nat} {acc bs : List UInt8} {s s' s'' : σ} {cs : List ReadRes}
      {r : Except IoErr (List UInt8)} (hn : 0 < n) (hm : 0 < m)
      (h : step s (min n m) (.ok bs) s') (hb : bs ≠ [])
      (hr : ReadsToEnd step (n - bs.length) (acc ++ bs) s' cs r s'') :
      ReadsToEnd step n acc s (.ok bs :: cs) r s''
  /-- `Err(e) if e.is_interrupted() => continue`. -/
  | interrupted {n m : Nat} {acc : List UInt8} {s s' s'' : σ} {cs : List ReadRes}
      {r : Except IoErr (List UInt8)} (hn : 0 < n) (hm : 0 < m)
      (h : step s (min n m) .interrupted s') (hr : ReadsToEnd step n acc s' cs r s'') :
      ReadsToEnd step n acc s (.interrupted :: cs) r s''
  /-- `Err(e) => return Err(e)`. -/
  | fail {n m : Nat} {acc : List UInt8} {s s' : σ} {e : IoErr} (hn : 0 < n) (hm : 0 < m)
      (h : step s (min n m) (.fail e) s') : ReadsToEnd step n acc s [.fail e] (.error e) s'

/-- A run of a decoder on a reader in state `s`: the answers of all its `read` calls in
order, its outcome, and the reader afterwards. -/
inductive Runs (step : RStep σ) (t : Target) :
    Prog ε α → σ → List ReadRes → Outcome ε α → σ → Prop
  | done (o : Outcome ε α) (s : σ) : Runs step t (.done o) s [] o s
  | readExact {n : Nat} {onErr : IoErr → ε} {k : Vector UInt8 n → Prog ε α} {s s' s'' : σ}
      {cs cs' : List ReadRes} {o : Outcome ε α} (v : Vector UInt8 n)
      (h : ReadsExact step n [] s cs (.ok v.toList) s') (hk : Runs step t (k v) s' cs' o s'') :
      Runs step t (.readExact n onErr k) s (cs ++ cs') o s''
  | readExactErr {n : Nat} {onErr : IoErr → ε} {k : Vector UInt8 n → Prog ε α} {s s' : σ}
      {cs : List ReadRes} {e : IoErr} (h : ReadsExact step n [] s cs (.error e) s') :
      Runs step t (.readExact n onErr k) s cs (.err (onErr e)) s'
  | takeToEnd {n : Nat} {onErr : IoErr → ε} {k : List UInt8 → Prog ε α} {s s' s'' : σ}
      {cs cs' : List ReadRes} {o : Outcome ε α} {bs : List UInt8}
      (h : ReadsToEnd step n [] s cs (.ok bs) s') (hk : Runs step t (k bs) s' cs' o s'') :
      Runs step t (.takeToEnd n onErr k) s (cs ++ cs') o s''
  | takeToEndErr {n : Nat} {onErr : IoErr → ε} {k : List UInt8 → Prog ε α} {s s' : σ}
      {cs : List ReadRes} {e : IoErr} (h : ReadsToEnd step n [] s cs (.error e) s') :
      Runs step t (.takeToEnd n onErr k) s cs (.err (onErr e)) s'
  | alloc {n : Nat} {k : Prog ε α} {s s' : σ} {cs : List ReadRes} {o : Outcome ε α}
      (ha : t.allocate n = none) (hk : Runs step t k s cs o s') :
      Runs step t (.alloc n k) s cs o s'
  | allocPanic {n : Nat} {k : Prog ε α} {s : σ} {q : PanicKind} (ha : t.allocate n = some q) :
      Runs step t (.alloc n k) s [] (.panic q) s

end Dlhn
