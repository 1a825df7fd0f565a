import Verif.Props.Typed
import Verif.Proof.Lenient
/-!
# C115: which types can notice bad data

`Lenient` and `SmallEnums` are in Spec/Lenient.lean.
-/
namespace Dlhn.Props
open Spec De

/-- Without booleans, options, enums and text nothing is ever refused: every input is read, or
is `Err(Read)` and the beginning of an input that is read completely. -/
theorem C115_lenient (t : Target) (hm : 4096 ≤ t.memLimit) (ty : Ty) (h : Lenient ty)
    (bs : List UInt8) :
    (∃ v rest, Prog.run t (de t ty) bs = .ok (v, rest)) ∨
      (Prog.run t (de t ty) bs = .err .read ∧
        ∃ more v, Prog.run t (de t ty) (bs ++ more) = .ok (v, [])) :=
  completable_de hm ty h bs

/-- With one of them, some data are refused whatever follows. -/
theorem C115_notices (t : Target) (hm : 4096 ≤ t.memLimit) (ty : Ty) (hd : Decodable ty)
    (hs : SmallEnums ty) (h : ¬ Lenient ty) :
    ∃ bs, ∀ more, ∃ e, Prog.run t (de t ty) (bs ++ more) = .err e :=
  rejects_de hm ty hd hs h

/-- So bad data can be told from missing data exactly for the types that have one of them. -/
theorem C115_iff (t : Target) (hm : 4096 ≤ t.memLimit) (ty : Ty) (hd : Decodable ty)
    (hs : SmallEnums ty) :
    (∃ bs, ∀ more, ∃ e, Prog.run t (de t ty) (bs ++ more) = .err e) ↔ ¬ Lenient ty := by
  refine ⟨fun ⟨bs, h⟩ hl => ?_, C115_notices t hm ty hd hs⟩
  rcases C115_lenient t hm ty hl bs with ⟨v, rest, hx⟩ | ⟨-, more, v, hx⟩
  · obtain ⟨e, he⟩ := h []
    rw [List.append_nil, hx] at he
    cases he
  · obtain ⟨e, he⟩ := h more
    rw [hx] at he
    cases he

/-- An input as long as the longest value of such a type is always read, on every target,
whatever the bytes are. -/
theorem C115_long_enough (t : Target) (ty : Ty) (h : Lenient ty) (m : Nat)
    (hm : maxSize ⟨.w64, 0⟩ ty = some m) (bs : List UInt8) (hl : m ≤ bs.length) :
    ∃ v rest, Prog.run t (de t ty) bs = .ok (v, rest) ∧ bs.length ≤ m + rest.length :=
  enough_de ty h m hm bs hl

/-- A record of numbers, and one with a name and a flag. -/
def sensorTy : Ty := .struct "Sensor" [("id", .u32), ("at", .i64), ("value", .f32)]
/-- With a name and a flag. -/
def labelledTy : Ty := .tuple [sensorTy, .seq .bool, .string]

example : Lenient sensorTy ∧ maxSize ⟨.w64, 0⟩ sensorTy = some 18 ∧
    Decodable labelledTy ∧ SmallEnums labelledTy ∧ ¬ Lenient labelledTy := by
  simp [sensorTy, labelledTy, Lenient, AllLenient, FieldsLenient, maxSize, maxSizeFields, addBound,
    Decodable, AllDecodable, FieldsDecodable, SmallEnums, AllSmallEnums, FieldsSmallEnums]

/-- So a damaged reading is another reading, if only its number of bytes is kept and the
numbers still take as many: nothing tells 1000 from 1001. -/
example : (Ser.toVec (.struct "Sensor" [("id", .u32 1000), ("at", .i64 5), ("value", .f32 0)])).1
      = [0xA8, 0x0F, 10, 0, 0, 0, 0] ∧
    Prog.run ⟨.w64, 4096⟩ (de ⟨.w64, 4096⟩ sensorTy) [0xA9, 0x0F, 10, 0, 0, 0, 0] =
      .ok (.struct "Sensor" [("id", .u32 1001), ("at", .i64 5), ("value", .f32 0)], []) := by
  exact ⟨by decide +kernel, rfl⟩

end Dlhn.Props
