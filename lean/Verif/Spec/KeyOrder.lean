import Verif.Spec.Bounds
/-!
# Specification of the order of values

The order of Rust's `Ord`, as the standard library implements it and `#[derive(Ord)]` derives it,
and which types have bytes in that order.
-/
namespace Dlhn.Spec

mutual
/-- `v` comes before `w` in the order of their type. -/
inductive Less : Val → Val → Prop
  | bool : Less (.bool false) (.bool true)
  | i8 (x y : Int8) : x < y → Less (.i8 x) (.i8 y)
  | i16 (x y : Int16) : x < y → Less (.i16 x) (.i16 y)
  | i32 (x y : Int32) : x < y → Less (.i32 x) (.i32 y)
  | i64 (x y : Int64) : x < y → Less (.i64 x) (.i64 y)
  | u8 (x y : UInt8) : x < y → Less (.u8 x) (.u8 y)
  | u16 (x y : UInt16) : x < y → Less (.u16 x) (.u16 y)
  | u32 (x y : UInt32) : x < y → Less (.u32 x) (.u32 y)
  | u64 (x y : UInt64) : x < y → Less (.u64 x) (.u64 y)
  /-- By code point. -/
  | char (c d : Char) : c.toNat < d.toNat → Less (.char c) (.char d)
  /-- Byte by byte; a beginning comes before the whole. -/
  | str (s u : String) : utf8 s < utf8 u → Less (.str s) (.str u)
  | bytes (a b : List UInt8) : a < b → Less (.bytes a) (.bytes b)
  | none (w : Val) : Less .none (.some w)
  | some (v w : Val) : Less v w → Less (.some v) (.some w)
  | newtypeStruct (name : String) (v w : Val) :
      Less v w → Less (.newtypeStruct name v) (.newtypeStruct name w)
  | seq (h k : Option Nat) (vs ws : List Val) : LessAll vs ws → Less (.seq h vs) (.seq k ws)
  | tuple (vs ws : List Val) : LessAll vs ws → Less (.tuple vs) (.tuple ws)
  | tupleStruct (name : String) (vs ws : List Val) :
      LessAll vs ws → Less (.tupleStruct name vs) (.tupleStruct name ws)
  /-- `BTreeMap`s: entry by entry. -/
  | map (h k : Option Nat) (es fs : List (Val × Val)) :
      LessEntries es fs → Less (.map h es) (.map k fs)
  | struct (name : String) (fs gs : List (String × Val)) :
      LessFields fs gs → Less (.struct name fs) (.struct name gs)
  /-- Enums: by variant, in the order of declaration. -/
  | index (v w : Val) (i j : UInt32) :
      indexOf v = Option.some i → indexOf w = Option.some j → i < j → Less v w
  | newtypeVariant (name : String) (i : UInt32) (vn : String) (v w : Val) :
      Less v w → Less (.newtypeVariant name i vn v) (.newtypeVariant name i vn w)
  | tupleVariant (name : String) (i : UInt32) (vn : String) (vs ws : List Val) :
      LessAll vs ws → Less (.tupleVariant name i vn vs) (.tupleVariant name i vn ws)
  | structVariant (name : String) (i : UInt32) (vn : String) (fs gs : List (String × Val)) :
      LessFields fs gs → Less (.structVariant name i vn fs) (.structVariant name i vn gs)
/-- The first difference decides; a beginning comes before the whole. -/
inductive LessAll : List Val → List Val → Prop
  | nil (w : Val) (ws : List Val) : LessAll [] (w :: ws)
  | head (v w : Val) (vs ws : List Val) : Less v w → LessAll (v :: vs) (w :: ws)
  | tail (v : Val) (vs ws : List Val) : LessAll vs ws → LessAll (v :: vs) (v :: ws)
/-- Keys before values. -/
inductive LessEntries : List (Val × Val) → List (Val × Val) → Prop
  | nil (e : Val × Val) (es : List (Val × Val)) : LessEntries [] (e :: es)
  | key (k l v w : Val) (es fs : List (Val × Val)) :
      Less k l → LessEntries ((k, v) :: es) ((l, w) :: fs)
  | value (k v w : Val) (es fs : List (Val × Val)) :
      Less v w → LessEntries ((k, v) :: es) ((k, w) :: fs)
  | tail (e : Val × Val) (es fs : List (Val × Val)) :
      LessEntries es fs → LessEntries (e :: es) (e :: fs)
/-- Fields in the order of declaration. -/
inductive LessFields : List (String × Val) → List (String × Val) → Prop
  | head (n : String) (v w : Val) (fs gs : List (String × Val)) :
      Less v w → LessFields ((n, v) :: fs) ((n, w) :: gs)
  | tail (f : String × Val) (fs gs : List (String × Val)) :
      LessFields fs gs → LessFields (f :: fs) (f :: gs)
end

mutual
/-- The type has a total order: no floats. -/
def HasOrd : Ty → Prop
  | .f32 => False
  | .f64 => False
  | .option ty => HasOrd ty
  | .newtypeStruct _ ty => HasOrd ty
  | .seq ty => HasOrd ty
  | .tuple ts => AllHaveOrd ts
  | .tupleStruct _ ts => AllHaveOrd ts
  | .map kt vt => HasOrd kt ∧ HasOrd vt
  | .struct _ fs => FieldsHaveOrd fs
  | .enum _ vs => VariantsHaveOrd vs
  | _ => True
/-- All members do. -/
def AllHaveOrd : List Ty → Prop
  | [] => True
  | ty :: ts => HasOrd ty ∧ AllHaveOrd ts
/-- All fields do. -/
def FieldsHaveOrd : List (String × Ty) → Prop
  | [] => True
  | (_, ty) :: fs => HasOrd ty ∧ FieldsHaveOrd fs
/-- All variants do. -/
def VariantsHaveOrd : List (String × VTy) → Prop
  | [] => True
  | (_, vt) :: vs => PayloadHasOrd vt ∧ VariantsHaveOrd vs
/-- The payload does. -/
def PayloadHasOrd : VTy → Prop
  | .unit => True
  | .newtype ty => HasOrd ty
  | .tuple ts => AllHaveOrd ts
  | .struct fs => FieldsHaveOrd fs
end

mutual
/-- The types whose bytes are in the order of the values: units, `bool`, `u8`, `char`, and what is
made of these with options, tuples, structs, and enums of at most 192 variants. -/
def SortsByBytes : Ty → Prop
  | .bool => True
  | .u8 => True
  | .char => True
  | .unit => True
  | .unitStruct _ => True
  | .option ty => SortsByBytes ty
  | .newtypeStruct _ ty => SortsByBytes ty
  | .tuple ts => AllSort ts
  | .tupleStruct _ ts => AllSort ts
  | .struct _ fs => FieldsSort fs
  | .enum _ vs => vs.length ≤ 192 ∧ VariantsSort vs
  | _ => False
/-- All members are such. -/
def AllSort : List Ty → Prop
  | [] => True
  | ty :: ts => SortsByBytes ty ∧ AllSort ts
/-- All fields are. -/
def FieldsSort : List (String × Ty) → Prop
  | [] => True
  | (_, ty) :: fs => SortsByBytes ty ∧ FieldsSort fs
/-- All variants are. -/
def VariantsSort : List (String × VTy) → Prop
  | [] => True
  | (_, vt) :: vs => PayloadSorts vt ∧ VariantsSort vs
/-- The payload is. -/
def PayloadSorts : VTy → Prop
  | .unit => True
  | .newtype ty => SortsByBytes ty
  | .tuple ts => AllSort ts
  | .struct fs => FieldsSort fs
end

end Dlhn.Spec
