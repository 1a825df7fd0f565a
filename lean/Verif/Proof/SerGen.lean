import Verif.Proof.Ser
import Verif.Proof.Writer
/-! # Facts about the serializer for every value -/
namespace Dlhn.Ser

open Spec

theorem emit_ok (bs : List UInt8) : (emit bs).exec.2 = .ok () := rfl

theorem serStr_ok (s : String) : (serStr s).exec.2 = .ok () := by
  rw [serStr, WProg.andThen_ok_iff]; exact ⟨rfl, rfl⟩
theorem serHint_ok (h : Option Nat) : (serHint h).exec.2 = .ok () := by cases h <;> rfl

theorem serKey_ok_iff (k : Val) : (serKey k).exec.2 = .ok () ↔ IsKey k := by
  cases k <;> simp [serKey, IsKey, WProg.exec, serStr_ok]

mutual
theorem ser_ok_iff : (v : Val) → ((ser v).exec.2 = .ok () ↔ Serializable v)
  | .bool b => by cases b <;> simp [ser, serBool, emit_ok, Serializable]
  | .i8 _ => by simp [ser, serI8, emit_ok, Serializable]
  | .i16 _ => by simp [ser, serI16, emit_ok, Serializable]
  | .i32 _ => by simp [ser, serI32, emit_ok, Serializable]
  | .i64 _ => by simp [ser, serI64, emit_ok, Serializable]
  | .i128 _ => by simp [ser, WProg.exec, Serializable]
  | .u8 _ => by simp [ser, serU8, emit_ok, Serializable]
  | .u16 _ => by simp [ser, serU16, emit_ok, Serializable]
  | .u32 _ => by simp [ser, serU32, emit_ok, Serializable]
  | .u64 _ => by simp [ser, serU64, emit_ok, Serializable]
  | .u128 _ => by simp [ser, WProg.exec, Serializable]
  | .f32 _ => by simp [ser, serF32, emit_ok, Serializable]
  | .f64 _ => by simp [ser, serF64, emit_ok, Serializable]
  | .char c => by simp [ser, serChar, serStr_ok, Serializable]
  | .str s => by simp [ser, serStr_ok, Serializable]
  | .bytes bs => by
    simp only [ser, serBytes, WProg.andThen_ok_iff, Serializable, iff_true]
    exact ⟨rfl, rfl⟩
  | .none => by simp [ser, emit_ok, Serializable]
  | .some v => by simp [ser, WProg.andThen_ok_iff, emit_ok, Serializable, ser_ok_iff v]
  | .unit => by simp [ser, Serializable]
  | .unitStruct _ => by simp [ser, Serializable]
  | .unitVariant _ _ _ => by simp [ser, serU32, emit_ok, Serializable]
  | .newtypeStruct _ v => by simp [ser, Serializable, ser_ok_iff v]
  | .newtypeVariant _ _ _ v => by
    simp [ser, WProg.andThen_ok_iff, serU32, emit_ok, Serializable, ser_ok_iff v]
  | .seq _ vs => by simp [ser, WProg.andThen_ok_iff, serHint_ok, Serializable, serAll_ok_iff vs]
  | .tuple vs => by simp [ser, Serializable, serAll_ok_iff vs]
  | .tupleStruct _ vs => by simp [ser, Serializable, serAll_ok_iff vs]
  | .tupleVariant _ _ _ vs => by
    simp [ser, WProg.andThen_ok_iff, serU32, emit_ok, Serializable, serAll_ok_iff vs]
  | .map _ es => by
    simp [ser, WProg.andThen_ok_iff, serHint_ok, Serializable, serEntries_ok_iff es]
  | .struct _ fs => by simp [ser, Serializable, serFields_ok_iff fs]
  | .structVariant _ _ _ fs => by
    simp [ser, WProg.andThen_ok_iff, serU32, emit_ok, Serializable, serFields_ok_iff fs]
theorem serAll_ok_iff : (vs : List Val) → ((serAll vs).exec.2 = .ok () ↔ AllSerializable vs)
  | [] => by simp [serAll, AllSerializable]
  | v :: vs => by
    simp [serAll, WProg.andThen_ok_iff, AllSerializable, ser_ok_iff v, serAll_ok_iff vs]
theorem serEntries_ok_iff : (es : List (Val × Val)) →
    ((serEntries es).exec.2 = .ok () ↔ EntriesSerializable es)
  | [] => by simp [serEntries, EntriesSerializable]
  | (k, v) :: es => by
    simp [serEntries, WProg.andThen_ok_iff, EntriesSerializable, serKey_ok_iff, ser_ok_iff v,
      serEntries_ok_iff es]
theorem serFields_ok_iff : (fs : List (String × Val)) →
    ((serFields fs).exec.2 = .ok () ↔ FieldsSerializable fs)
  | [] => by simp [serFields, FieldsSerializable]
  | (_, v) :: fs => by
    simp [serFields, WProg.andThen_ok_iff, FieldsSerializable, ser_ok_iff v, serFields_ok_iff fs]
end

/-! ## Every write error becomes `Error::Write`, and nothing panics -/

/-- Writes map errors to `Write`, and the result is not a panic. -/
def Good : WProg SerErr → Prop
  | .done o => o.returns
  | .writeAll _ f k => (∀ x, f x = .write) ∧ Good k

theorem Good.andThen {p q : WProg SerErr} (hp : Good p) (hq : Good q) : Good (p.andThen q) := by
  induction p with
  | done o => cases o <;> first | exact hq | exact hp
  | writeAll bs f k ih => exact ⟨hp.1, ih hp.2⟩

theorem Good.maps {p : WProg SerErr} (hp : Good p) : p.Maps fun _ => .write := by
  induction p with
  | done o => trivial
  | writeAll bs f k ih => exact ⟨hp.1, ih hp.2⟩

theorem Good.exec {p : WProg SerErr} (hp : Good p) : p.exec.2.returns := by
  induction p with
  | done o => exact hp
  | writeAll bs f k ih => exact ih hp.2

theorem Good.runScript {p : WProg SerErr} (hp : Good p) (s : WScript) :
    (p.runScript s).2.returns := by
  induction p generalizing s with
  | done o => exact hp
  | writeAll bs f k ih =>
    simp only [WProg.runScript]
    split
    · trivial
    · exact ih hp.2 _

theorem good_emit (bs : List UInt8) : Good (emit bs) := ⟨fun _ => rfl, trivial⟩
theorem good_serStr (s : String) : Good (serStr s) := (good_emit _).andThen (good_emit _)
theorem good_serHint (h : Option Nat) : Good (serHint h) := by
  cases h
  · trivial
  · exact good_emit _
theorem good_serKey (k : Val) : Good (serKey k) := by
  cases k <;> first | exact good_serStr _ | exact trivial

mutual
theorem good_ser : (v : Val) → Good (ser v)
  | .bool b => by cases b <;> exact good_emit _
  | .i8 _ => good_emit _
  | .i16 _ => good_emit _
  | .i32 _ => good_emit _
  | .i64 _ => good_emit _
  | .i128 _ => trivial
  | .u8 _ => good_emit _
  | .u16 _ => good_emit _
  | .u32 _ => good_emit _
  | .u64 _ => good_emit _
  | .u128 _ => trivial
  | .f32 _ => good_emit _
  | .f64 _ => good_emit _
  | .char _ => good_serStr _
  | .str _ => good_serStr _
  | .bytes _ => (good_emit _).andThen (good_emit _)
  | .none => good_emit _
  | .some v => (good_emit _).andThen (good_ser v)
  | .unit => trivial
  | .unitStruct _ => trivial
  | .unitVariant _ _ _ => good_emit _
  | .newtypeStruct _ v => good_ser v
  | .newtypeVariant _ _ _ v => (good_emit _).andThen (good_ser v)
  | .seq h vs => (good_serHint h).andThen (good_serAll vs)
  | .tuple vs => good_serAll vs
  | .tupleStruct _ vs => good_serAll vs
  | .tupleVariant _ _ _ vs => (good_emit _).andThen (good_serAll vs)
  | .map h es => (good_serHint h).andThen (good_serEntries es)
  | .struct _ fs => good_serFields fs
  | .structVariant _ _ _ fs => (good_emit _).andThen (good_serFields fs)
theorem good_serAll : (vs : List Val) → Good (serAll vs)
  | [] => trivial
  | v :: vs => (good_ser v).andThen (good_serAll vs)
theorem good_serEntries : (es : List (Val × Val)) → Good (serEntries es)
  | [] => trivial
  | (k, v) :: es => (good_serKey k).andThen ((good_ser v).andThen (good_serEntries es))
theorem good_serFields : (fs : List (String × Val)) → Good (serFields fs)
  | [] => trivial
  | (_, v) :: fs => (good_ser v).andThen (good_serFields fs)
end

end Dlhn.Ser
