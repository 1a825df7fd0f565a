import Verif.Spec.SelfLog
import Verif.Spec.DeriveAgree
/-!
# Specification: intermediaries that know no types

A proxy, a message broker or a tool that copies a log. It knows the format but not the types of
the values: it reads the header, writes it, and then reads value after value as a body that the
header describes, and serializes that body again.
-/
namespace Dlhn

variable {σ : Type}

/-- `loop { match Body::deserialize(&header, &mut d) { Ok(b) => b.serialize(&mut ser)?,
Err(_) => break } }`: `out` is what is written. -/
inductive RelaysBodies (step : RStep σ) (t : Target) (mode : BuildMode) (size : Nat) (h : Header) :
    σ → List ReadRes → (out : List UInt8) → σ → Prop where
  | stop {s s' : σ} {cs : List ReadRes} {e : DeErr}
      (hr : Runs step t (Body.de t mode size h) s cs (.err e) s') :
      RelaysBodies step t mode size h s cs [] s'
  | stuck {s s' : σ} {cs : List ReadRes} {b : Body} {bs : List UInt8} {e : SerErr}
      (hr : Runs step t (Body.de t mode size h) s cs (.ok b) s')
      (hw : Body.toVec mode b = (bs, .err e)) : RelaysBodies step t mode size h s cs bs s'
  | next {s s' s'' : σ} {cs ds : List ReadRes} {b : Body} {bs out : List UInt8}
      (hr : Runs step t (Body.de t mode size h) s cs (.ok b) s')
      (hw : Body.toVec mode b = (bs, .ok ()))
      (more : RelaysBodies step t mode size h s' ds out s'') :
      RelaysBodies step t mode size h s (cs ++ ds) (bs ++ out) s''

/-- `let header = reader.deserialize_header()?; header.serialize(&mut writer)?;` and then the
loop. -/
inductive Relays (step : RStep σ) (t : Target) (mode : BuildMode) (size hsize d : Nat) :
    σ → List ReadRes → (out : List UInt8) → σ → Prop where
  | noHeader {s s' : σ} {cs : List ReadRes} {e : IoErr}
      (hr : Runs step t (Header.deserialize hsize d) s cs (.err e) s') :
      Relays step t mode size hsize d s cs [] s'
  | stuck {s s' : σ} {cs : List ReadRes} {h : Header} {bs : List UInt8} {e : IoErr}
      (hr : Runs step t (Header.deserialize hsize d) s cs (.ok h) s')
      (hw : h.toVec = (bs, .err e)) : Relays step t mode size hsize d s cs bs s'
  | header {s s' s'' : σ} {cs ds : List ReadRes} {h : Header} {bs out : List UInt8}
      (hr : Runs step t (Header.deserialize hsize d) s cs (.ok h) s')
      (hw : h.toVec = (bs, .ok ())) (more : RelaysBodies step t mode size h s' ds out s'') :
      Relays step t mode size hsize d s (cs ++ ds) (bs ++ out) s''

/-- Any number of intermediaries in a row. `data` is what was written into the first connection
and `out` is what the last one writes. `Link sent delivered` says which part of what was sent
over a connection is delivered by the reader at its other end: all of it, or a beginning. -/
inductive Hops (Link : List UInt8 → List UInt8 → Prop) (t : Target) (mode : BuildMode)
    (size hsize d : Nat) (data : List UInt8) : (out : List UInt8) → Prop where
  | none : Hops Link t mode size hsize d data data
  | one {sent out : List UInt8} (before : Hops Link t mode size hsize d data sent)
      {σ : Type} {step : RStep σ} {s s' : σ} {cs : List ReadRes} (lawful : step.Lawful)
      (link : Link sent (handed cs)) (hop : Relays step t mode size hsize d s cs out s') :
      Hops Link t mode size hsize d data out

/-- A connection that delivers everything. -/
def Whole (sent delivered : List UInt8) : Prop := delivered = sent

/-- A connection that may break: the reader ends or fails, or the sender dies before everything
is written. -/
def Broken (sent delivered : List UInt8) : Prop := delivered <+: sent

/-- The receiver in the end knows a type: `let header = reader.deserialize_header()?;` and then
`loop { match T::deserialize(&mut d) { Ok(v) => values.push(v), Err(e) => return
Ok((header, values, e)) } }`. `p` is `T::deserialize`. -/
inductive ReadsTyped {α : Type} (step : RStep σ) (t : Target) (p : Prog DeErr α) (hsize d : Nat) :
    σ → List ReadRes → Except IoErr (Header × List α × DeErr) → σ → Prop where
  | noHeader {s s' : σ} {cs : List ReadRes} {e : IoErr}
      (h : Runs step t (Header.deserialize hsize d) s cs (.err e) s') :
      ReadsTyped step t p hsize d s cs (.error e) s'
  | header {s s' s'' : σ} {cs ds : List ReadRes} {hd : Header} {vs : List α} {e : DeErr}
      (h : Runs step t (Header.deserialize hsize d) s cs (.ok hd) s')
      (more : ReadsOut step t p s' ds vs e s'') :
      ReadsTyped step t p hsize d s (cs ++ ds) (.ok (hd, vs, e)) s''

open Spec Derive in
/-- What is asked of a value that is sent: it exists, it can be serialized, the intermediaries
have memory for it, and the dates and decimals in it are ones that `U` accepts. -/
structure Sendable (t : Target) (mode : BuildMode) (size : Nat) (h : Header) (T U : RTy)
    (v : Carrier T) : Prop where
  real : Real t T v
  dates : DatesRebase mode T v
  memory : MemoryFits t size h T v
  times : ChecksTime U → TimesExistIn T v
  digits : HasNumDecimal U → DigitsDenoteIn T v

open Spec Derive in
/-- What is asked of the type that receives. -/
structure Receiver (env : Env) (U : RTy) : Prop where
  readable : Readable U
  plain : Plain U
  symmetric : Symmetric U
  defaulted : Defaulted env U

end Dlhn
