import Verif.Spec.Relay
/-!
# Specification: intermediaries on different machines
-/
namespace Dlhn.Spec

/-- Where an intermediary runs: the target and its memory, whether overflow is checked, the
sizes of `Body` and `Header` in memory, and the depth of headers its stack allows. -/
structure Machine where
  target : Target
  mode : BuildMode
  size : Nat
  hsize : Nat
  stack : Nat

/-- Intermediaries in a row, each on its own machine. `data` is what was written into the
first connection and `out` is what the last one writes; `Link` is as for `Hops`. -/
inductive HopsAcross (Link : List UInt8 → List UInt8 → Prop) (data : List UInt8) :
    List Machine → (out : List UInt8) → Prop where
  | none : HopsAcross Link data [] data
  | one {ms : List Machine} (m : Machine) {sent out : List UInt8}
      (before : HopsAcross Link data ms sent)
      {σ : Type} {step : RStep σ} {s s' : σ} {cs : List ReadRes} (lawful : step.Lawful)
      (link : Link sent (handed cs))
      (hop : Relays step m.target m.mode m.size m.hsize m.stack s cs out s') :
      HopsAcross Link data (ms ++ [m]) out

/-- The machine has room for values of `T` with the header `h`. -/
structure Machine.Holds (m : Machine) (h : Header) (T : RTy) (sent : List (Derive.Carrier T)) :
    Prop where
  memory : 4096 ≤ m.target.memLimit
  headers : 65535 * m.hsize ≤ m.target.memLimit ∧ 65535 * m.hsize ≤ m.target.isizeMax
  stack : depth h ≤ m.stack
  values : ∀ v ∈ sent, Real m.target T v ∧ DatesRebase m.mode T v ∧
    MemoryFits m.target m.size h T v

end Dlhn.Spec
