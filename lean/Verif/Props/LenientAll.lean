import Verif.Props.Lenient
import Verif.Proof.LenientAll
/-!
# C115 for dynamic values and derived types

`LenientHeader`, `LenientDerived`, `DefaultedRead` and `SmallEnumsDerived` are in
Spec/LenientAll.lean. "Not read" is an error or a panic.
-/
namespace Dlhn.Props
open Spec De

/-- Bodies of numbers, bytes, dates and tuples of them: every input is read, or is `Err(Read)`
and the beginning of an input that is read completely. -/
theorem C115_body_lenient (t : Target) (hm : 4096 ≤ t.memLimit) (mode : BuildMode) (size : Nat)
    (h : Header) (hl : LenientHeader mode h)
    (ht : ∀ hs, .tuple hs ∈ headerParts h →
      hs.length * size ≤ t.isizeMax ∧ hs.length * size ≤ t.memLimit) (bs : List UInt8) :
    (∃ v rest, Prog.run t (Body.de t mode size h) bs = .ok (v, rest)) ∨
      (Prog.run t (Body.de t mode size h) bs = .err .read ∧
        ∃ more v, Prog.run t (Body.de t mode size h) (bs ++ more) = .ok (v, [])) :=
  Body.completable_body hm mode size h hl ht bs

/-- Some data are never read under a header exactly if there is something else in it; an array
is enough, since a huge count is a panic. -/
theorem C115_body_iff (t : Target) (hm : 4096 ≤ t.memLimit) (mode : BuildMode) (size : Nat)
    (hz : 0 < size) (h : Header)
    (ht : ∀ hs, .tuple hs ∈ headerParts h →
      hs.length * size ≤ t.isizeMax ∧ hs.length * size ≤ t.memLimit)
    (he : ∀ hs, .enum hs ∈ headerParts h → hs.length < 2 ^ 32) :
    (∃ bs, ∀ more v, Prog.run t (Body.de t mode size h) (bs ++ more) ≠ .ok v) ↔
      ¬ LenientHeader mode h := by
  refine ⟨fun ⟨bs, hb⟩ hl => ?_, fun hl => Body.misses_body hm mode size hz h hl he ht⟩
  rcases C115_body_lenient t hm mode size h hl ht bs with ⟨v, rest, hx⟩ | ⟨-, more, v, hx⟩
  · exact hb [] (v, rest) (by rw [List.append_nil]; exact hx)
  · exact hb more _ hx

/-- Derived types of numbers, bytes, dates, vectors and structs: every input is read, or is
`Err(Read)` and the beginning of an input that is read completely. -/
theorem C115_derived_lenient (t : Target) (hm : 4096 ≤ t.memLimit) (mode : BuildMode)
    (env : Derive.Env) (T : RTy) (hl : LenientDerived mode T) (hd : DefaultedRead env T)
    (bs : List UInt8) :
    (∃ v rest, Prog.run t (Derive.deTy t mode env T) bs = .ok (v, rest)) ∨
      (Prog.run t (Derive.deTy t mode env T) bs = .err .read ∧
        ∃ more v, Prog.run t (Derive.deTy t mode env T) (bs ++ more) = .ok (v, [])) :=
  Derive.completable_deTy hm mode env T hl hd bs

/-- Some data are never read as a derived type exactly if there is something else in it. -/
theorem C115_derived_iff (t : Target) (hm : 4096 ≤ t.memLimit) (mode : BuildMode)
    (env : Derive.Env) (T : RTy) (hd : DefaultedRead env T) (hs : SmallEnumsDerived T) :
    (∃ bs, ∀ more v, Prog.run t (Derive.deTy t mode env T) (bs ++ more) ≠ .ok v) ↔
      ¬ LenientDerived mode T := by
  refine ⟨fun ⟨bs, hb⟩ hl => ?_, fun hl => Derive.misses_deTy hm mode env T hl hd hs⟩
  rcases C115_derived_lenient t hm mode env T hl hd bs with ⟨v, rest, hx⟩ | ⟨-, more, v, hx⟩
  · exact hb [] (v, rest) (by rw [List.append_nil]; exact hx)
  · exact hb more _ hx

/-- A dated amount: noticed only with overflow checks. With `time::Date`: always. -/
def amountTy (D : RTy) : RTy :=
  .struct "Amount" (.named [.mk [] "on" D, .mk [] "value" .numBigDecimal,
    .mk [] "parts" (.vec (.tuple [.u32, .byteBuf]))])

example : LenientDerived .release (amountTy .date) ∧ ¬ LenientDerived .debug (amountTy .date) ∧
    ¬ LenientDerived .release (amountTy .timeDate) ∧ SmallEnumsDerived (amountTy .date) ∧
    DefaultedRead ⟨fun _ _ => none, id⟩ (amountTy .date) := by
  have hsk : ¬ SkippedDe [] := by decide
  refine ⟨?_, ?_, ?_, ?_, ?_⟩
  · simp [amountTy, LenientDerived, AllLenientDerived, FieldsLenientDerived]
  · simp [amountTy, LenientDerived, AllLenientDerived, FieldsLenientDerived, hsk]
  · simp [amountTy, LenientDerived, AllLenientDerived, FieldsLenientDerived, hsk]
  · simp [amountTy, SmallEnumsDerived, readParts, readPartsFields, readPartsAll, hsk]
  · simp [amountTy, DefaultedRead, readParts, readPartsFields, readPartsAll, hsk, DefaultedPart,
      DefaultedFields, declared, fieldAttrs]

example : LenientHeader .debug (.tuple [.uint32, .bigDecimal, .tuple [.binary, .dateTime]]) ∧
    ¬ LenientHeader .debug (.tuple [.uint32, .array .uint8]) := by
  simp [LenientHeader, AllLenientHeader]

end Dlhn.Props
