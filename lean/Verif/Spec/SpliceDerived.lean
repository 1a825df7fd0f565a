import Verif.Spec.Derive
/-!
# Specification: places inside values of derived types
-/
namespace Dlhn.Spec

open Derive (Carrier TupleCarrier FieldCarrier FieldsCarrier VariantsCarrier)

mutual
/-- `PlaceIn T v U u put`: the value `v` of type `T` has, at some place that is serialized, the value
`u` of type `U`, and `put x` is `v` with `x` at this place. -/
inductive PlaceIn : (T : RTy) → Carrier T → (U : RTy) → Carrier U → (Carrier U → Carrier T) → Prop
  | here (T : RTy) (v : Carrier T) : PlaceIn T v T v fun x => x
  | some {T U : RTy} {v : Carrier T} {u : Carrier U} {put : Carrier U → Carrier T} :
      PlaceIn T v U u put → PlaceIn (.option T) (some v) U u fun x => some (put x)
  -- an element of a vector
  | element {T U : RTy} {v : Carrier T} {u : Carrier U} {put : Carrier U → Carrier T}
      (vs ws : List (Carrier T)) :
      PlaceIn T v U u put → PlaceIn (.vec T) (vs ++ v :: ws) U u fun x => vs ++ put x :: ws
  -- a value of a map
  | value {T U : RTy} {v : Carrier T} {u : Carrier U} {put : Carrier U → Carrier T} (k : String)
      (es fs : List (String × Carrier T)) : PlaceIn T v U u put →
      PlaceIn (.btreeMap T) (es ++ (k, v) :: fs) U u fun x => es ++ (k, put x) :: fs
  | hashValue {T U : RTy} {v : Carrier T} {u : Carrier U} {put : Carrier U → Carrier T} (k : String)
      (es fs : List (String × Carrier T)) : PlaceIn T v U u put →
      PlaceIn (.hashMap T) (es ++ (k, v) :: fs) U u fun x => es ++ (k, put x) :: fs
  | member {Ts : List RTy} {U : RTy} {vs : TupleCarrier Ts} {u : Carrier U}
      {put : Carrier U → TupleCarrier Ts} :
      MemberIn Ts vs U u put → PlaceIn (.tuple Ts) vs U u put
  | field (name : String) {fs : List RField} {U : RTy} {vs : FieldCarrier fs} {u : Carrier U}
      {put : Carrier U → FieldCarrier fs} :
      FieldIn fs vs U u put → PlaceIn (.struct name (.named fs)) vs U u put
  | tupleField (name : String) {fs : List RField} {U : RTy} {vs : FieldCarrier fs} {u : Carrier U}
      {put : Carrier U → FieldCarrier fs} :
      FieldIn fs vs U u put → PlaceIn (.struct name (.unnamed fs)) vs U u put
  | variant (name : String) {vs : List RVariant} {U : RTy} {v : VariantsCarrier vs} {u : Carrier U}
      {put : Carrier U → VariantsCarrier vs} :
      VariantIn vs v U u put → PlaceIn (.enum name vs) v U u put
/-- A member of a tuple, or a place in it. -/
inductive MemberIn : (Ts : List RTy) → TupleCarrier Ts → (U : RTy) → Carrier U →
    (Carrier U → TupleCarrier Ts) → Prop
  | this {T U : RTy} {v : Carrier T} {u : Carrier U} {put : Carrier U → Carrier T} (Ts : List RTy)
      (vs : TupleCarrier Ts) :
      PlaceIn T v U u put → MemberIn (T :: Ts) (v, vs) U u fun x => (put x, vs)
  | later (T : RTy) (v : Carrier T) {Ts : List RTy} {U : RTy} {vs : TupleCarrier Ts} {u : Carrier U}
      {put : Carrier U → TupleCarrier Ts} :
      MemberIn Ts vs U u put → MemberIn (T :: Ts) (v, vs) U u fun x => (v, put x)
/-- A field that is serialized, or a place in it. -/
inductive FieldIn : (fs : List RField) → FieldCarrier fs → (U : RTy) → Carrier U →
    (Carrier U → FieldCarrier fs) → Prop
  | this (attrs : List Attr) (name : String) {T U : RTy} {v : Carrier T} {u : Carrier U}
      {put : Carrier U → Carrier T} (fs : List RField) (vs : FieldCarrier fs)
      (kept : ¬ Skipped attrs) :
      PlaceIn T v U u put → FieldIn (.mk attrs name T :: fs) (v, vs) U u fun x => (put x, vs)
  | later (attrs : List Attr) (name : String) (T : RTy) (v : Carrier T) {fs : List RField} {U : RTy}
      {vs : FieldCarrier fs} {u : Carrier U} {put : Carrier U → FieldCarrier fs} :
      FieldIn fs vs U u put → FieldIn (.mk attrs name T :: fs) (v, vs) U u fun x => (v, put x)
/-- A place in the fields of the variant the value has. -/
inductive VariantIn : (vs : List RVariant) → VariantsCarrier vs → (U : RTy) → Carrier U →
    (Carrier U → VariantsCarrier vs) → Prop
  | named (attrs : List Attr) (name : String) {fs : List RField} {U : RTy} {v : FieldCarrier fs}
      {u : Carrier U} {put : Carrier U → FieldCarrier fs} (vs : List RVariant)
      (kept : ¬ Skipped attrs) : FieldIn fs v U u put →
      VariantIn (.mk attrs name (.named fs) :: vs) (.inl v) U u fun x => .inl (put x)
  | unnamed (attrs : List Attr) (name : String) {fs : List RField} {U : RTy} {v : FieldCarrier fs}
      {u : Carrier U} {put : Carrier U → FieldCarrier fs} (vs : List RVariant)
      (kept : ¬ Skipped attrs) : FieldIn fs v U u put →
      VariantIn (.mk attrs name (.unnamed fs) :: vs) (.inl v) U u fun x => .inl (put x)
  | later (attrs : List Attr) (name : String) (fields : RFields) {vs : List RVariant} {U : RTy}
      {v : VariantsCarrier vs} {u : Carrier U} {put : Carrier U → VariantsCarrier vs} :
      VariantIn vs v U u put →
      VariantIn (.mk attrs name fields :: vs) (.inr v) U u fun x => .inr (put x)
end

end Dlhn.Spec
