import Verif.Proof.Sends
/-!
# C116: calls made on writers

`sends` (Spec/Sends.lean) lists the buffers an encoder passes to `write_all`; `writeCalls`
(Model/WriteCalls.lean) counts the calls of `write` these make on a given writer.
-/
namespace Dlhn.Props

open Spec

/-! ## `write_all` -/

/-- Serializing a value hands the writer exactly the bytes a `Vec` would hold, in at most two
calls of `write_all` per byte. -/
theorem C116_typed (v : Val) :
    (sends (Ser.ser v)).flatten = (Ser.toVec v).1 ∧
    (sends (Ser.ser v)).length ≤ 2 * (Ser.toVec v).1.length :=
  ⟨flatten_sends _, Ser.frugal_ser v⟩

/-- The empty string is one byte and two calls; a million units are one length. -/
example : sends (Ser.ser (.str "")) = [[0], []] := by decide +kernel
example : sends (Ser.ser (.seq (some 2) [.unit, .unit])) = [[2]] := by decide +kernel

/-- The same for every `Serialize` implementation. -/
theorem C116_impl (p : SerImpl) :
    (sendsImpl p.run).flatten = p.run.exec.1 ∧
    (sendsImpl p.run).length ≤ 2 * p.run.exec.1.length :=
  ⟨flatten_sendsImpl _, frugal_run p⟩

/-- An implementation that goes on after an error. -/
example : sendsImpl (SerImpl.tuple 2 (.element (.i128 5) fun _ => .element (.u8 7) fun _ =>
    .finish)).run = [[7]] := by decide +kernel

/-- The same for bodies. -/
theorem C116_body (mode : BuildMode) (b : Body) :
    (sends (b.ser mode)).flatten = (b.toVec mode).1 ∧
    (sends (b.ser mode)).length ≤ 2 * (b.toVec mode).1.length :=
  ⟨flatten_sends _, Body.frugal_body mode b⟩

example : sends (Body.ser .debug (.map [("k", .boolean true)])) = [[1], [1], [107], [1]] := by
  decide +kernel

/-- The same for derived types. -/
theorem C116_derived (mode : BuildMode) (T : RTy) (v : Derive.Carrier T) :
    (sends (Derive.ser mode T v)).flatten = (Derive.ser mode T v).exec.1 ∧
    (sends (Derive.ser mode T v)).length ≤ 2 * (Derive.ser mode T v).exec.1.length :=
  ⟨flatten_sends _, Derive.frugal_derived mode T v⟩

/-- The same for headers. -/
theorem C116_header (h : Header) :
    (sends h.serialize).flatten = h.toVec.1 ∧
    (sends h.serialize).length ≤ 2 * h.toVec.1.length :=
  ⟨flatten_sends _, (Header.roomy_serialize h).frugal⟩

/-- The same for the headers of types. -/
theorem C116_type_header (T : RTy) (p : WProg IoErr) (h : Derive.serializeHeader T = .ok p) :
    (sends p).flatten = p.exec.1 ∧ (sends p).length ≤ 2 * p.exec.1.length :=
  ⟨flatten_sends _, (Derive.roomy_header T p h).frugal⟩

/-- A unit variant is announced by two calls, one of them with nothing. -/
example : ∃ p, Derive.serializeHeader (.enum "E" [.mk [] "A" .unit, .mk [] "B" .unit]) = .ok p ∧
    sends p = [[24, 2], [], [0], [], [0]] := by
  have hc : Derive.countBytes 2 = [2] := by decide +kernel
  refine ⟨_, by simp [Derive.serializeHeader, Derive.enumVariants, Derive.variantFields, bind,
    Except.bind, pure, Except.pure, Derive.hasSkipSerializingIf, Derive.isSkipField]; rfl, ?_⟩
  simp [Derive.put, WProg.andThen, WProg.skip, sends, hc, Derive.ENUM_CODE, Header.UNIT_CODE]

/-! ## `write` -/

/-- A bound on the calls of `write`: one per byte that arrives and one per interruption; one
more if the writer fails. -/
def FewWrites {ε : Type} (p : WProg ε) : Prop :=
  ∀ s : WScript,
    p.writeCalls s ≤ (p.runScript s).1.length + s.count .interrupted + 1 ∧
    ((p.runScript s).2 = .ok () →
      p.writeCalls s ≤ (p.runScript s).1.length + s.count .interrupted)

/-- On every writer, whatever is serialized. -/
theorem C116_writes :
    (∀ v, FewWrites (Ser.ser v)) ∧ (∀ mode b, FewWrites (Body.ser mode b)) ∧
    (∀ mode T v, FewWrites (Derive.ser mode T v)) ∧ (∀ h, FewWrites (Header.serialize h)) ∧
    (∀ T p, Derive.serializeHeader T = .ok p → FewWrites p) :=
  ⟨fun _ s => WProg.writeCalls_le _ s, fun _ _ s => WProg.writeCalls_le _ s,
    fun _ _ _ s => WProg.writeCalls_le _ s, fun _ s => WProg.writeCalls_le _ s,
    fun _ _ _ s => WProg.writeCalls_le _ s⟩

/-- Both bounds are reached. -/
example : (Ser.ser (.u16 300)).writeCalls [.accept 1, .interrupted, .accept 1] = 3 ∧
    ((Ser.ser (.u16 300)).runScript [.accept 1, .interrupted, .accept 1]).1.length = 2 ∧
    (Ser.ser (.u16 300)).writeCalls [.accept 1, .interrupted, .fail (.other 5)] = 3 ∧
    ((Ser.ser (.u16 300)).runScript [.accept 1, .interrupted, .fail (.other 5)]).1.length = 1 := by
  decide +kernel

/-- An implementation that goes on after errors makes one call per byte that arrives and one
each time the writer accepts nothing. -/
theorem C116_writes_impl (p : SerImpl) (s : WScript) :
    p.run.writeCalls s ≤ (p.run.runScript s).1.length + s.countP hindrance :=
  WCode.writeCalls_le _ s

example : let p := SerImpl.tuple 2 (.element (.u8 5) fun _ => .element (.u8 7) fun _ => .finish)
    p.run.writeCalls [.fail (.other 5), .interrupted] = 3 ∧
    (p.run.runScript [.fail (.other 5), .interrupted]).1 = [7] := by
  decide +kernel

end Dlhn.Props
