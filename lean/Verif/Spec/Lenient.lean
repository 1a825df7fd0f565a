import Verif.Spec.Wire
/-!
# Specification: types that can notice bad data

Nothing here mentions the decoder.
-/
namespace Dlhn.Spec

mutual
/-- Numbers and bytes, and what sequences, maps, tuples, structs and units make of them: no
booleans, options, enums, characters and strings. -/
def Lenient : Ty → Prop
  | .i8 | .i16 | .i32 | .i64 | .u8 | .u16 | .u32 | .u64 | .f32 | .f64 => True
  | .byteBuf => True
  | .unit => True
  | .unitStruct _ => True
  | .newtypeStruct _ ty => Lenient ty
  | .seq ty => Lenient ty
  | .tuple ts => AllLenient ts
  | .tupleStruct _ ts => AllLenient ts
  | .map kt vt => Lenient kt ∧ Lenient vt
  | .struct _ fs => FieldsLenient fs
  | _ => False
/-- All members are. -/
def AllLenient : List Ty → Prop
  | [] => True
  | ty :: ts => Lenient ty ∧ AllLenient ts
/-- All fields are. -/
def FieldsLenient : List (String × Ty) → Prop
  | [] => True
  | (_, ty) :: fs => Lenient ty ∧ FieldsLenient fs
end

mutual
/-- Every enum in the type, outside of enums, has less than 65536 variants. -/
def SmallEnums : Ty → Prop
  | .option ty => SmallEnums ty
  | .newtypeStruct _ ty => SmallEnums ty
  | .seq ty => SmallEnums ty
  | .tuple ts => AllSmallEnums ts
  | .tupleStruct _ ts => AllSmallEnums ts
  | .map kt vt => SmallEnums kt ∧ SmallEnums vt
  | .struct _ fs => FieldsSmallEnums fs
  | .enum _ vs => vs.length < 65536
  | _ => True
/-- All members. -/
def AllSmallEnums : List Ty → Prop
  | [] => True
  | ty :: ts => SmallEnums ty ∧ AllSmallEnums ts
/-- All fields. -/
def FieldsSmallEnums : List (String × Ty) → Prop
  | [] => True
  | (_, ty) :: fs => SmallEnums ty ∧ FieldsSmallEnums fs
end

end Dlhn.Spec
