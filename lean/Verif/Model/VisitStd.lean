import Verif.Model.Visit
/-!
# The implementations serde and serde_derive provide

Written as `Impl`s, with the loops and the bookkeeping of the real ones: the
visitor of `Vec` asks until `None`; that of a tuple asks for each element and reports
a missing one; a derived struct visitor looks up each key among its field names, keeps
a slot per field, reports duplicate and missing fields and ignores unknown ones; a
derived enum visitor checks the index while deserializing it. `De.de`
(Model/De.lean) has all this folded into straight recursion; `Impl.run (implOf ty)`
is proved equal to it (`C87_standard`).
-/
namespace Dlhn

/-- The visitor of `Vec<T>`: `while let Some(x) = seq.next_element()? { values.push(x) }`.
`fuel` bounds the unfolding and is one more than the number of elements. -/
def collectSeq {β : Type} (seed : Impl β) : (fuel : Nat) → (values : List β) → SeqImpl (List β)
  | 0, _ => .error (.message "unreachable")
  | fuel + 1, values => .next seed fun
    | none => .ok values
    | some x => collectSeq seed fuel (values ++ [x])

/-- The visitor of a map:
`while let Some((k, v)) = map.next_entry()? { values.insert(k, v) }`, where
`next_entry` asks for the key and then for the value. The entries are kept in
order of arrival (what a map makes of them is `Model/Derive`'s business). -/
def collectMap {κ β : Type} (key : Impl κ) (value : Impl β) :
    (fuel : Nat) → (values : List (κ × β)) → MapImpl (List (κ × β))
  | 0, _ => .error (.message "unreachable")
  | fuel + 1, values => .key key fun
    | none => .ok values
    | some k => .value value fun v => collectMap key value fuel (values ++ [(k, v)])

/-- The visitor of a tuple, tuple struct or tuple variant: one `next_element()?` per
field, `None` is `invalid_length`. -/
def collectTuple {β : Type} : (seeds : List (Impl β)) → (values : List β) → SeqImpl (List β)
  | [], values => .ok values
  | seed :: seeds, values => .next seed fun
    | none => .error (.message "invalid length")
    | some v => collectTuple seeds (values ++ [v])

/-- All slots filled, or the error for the first empty one. -/
def fillSlots {β : Type} : List (String × Impl β) → List (Option β) → Except DeErr (List (String × β))
  | [], _ => .ok []
  | (n, _) :: fs, some v :: slots => (fillSlots fs slots).map ((n, v) :: ·)
  | (n, _) :: _, _ => .error (.message ("missing field `" ++ n ++ "`"))

/-- The `visit_map` serde_derive generates for a struct: one slot per field. -/
def collectFields {β : Type} (fs : List (String × Impl β)) :
    (fuel : Nat) → (slots : List (Option β)) → FieldsImpl (List (String × β))
  | 0, _ => .error (.message "unreachable")
  | fuel + 1, slots => .key fun
    | none => match fillSlots fs slots with
      | .ok vs => .ok vs
      | .error e => .error e
    | some name => match fs.findIdx? (·.1 = name) with
      | none => .value (β := Unit) .ignoredAny fun _ => collectFields fs fuel slots
      | some i => match slots[i]?, fs[i]? with
        | some none, some (_, seed) =>
          .value seed fun v => collectFields fs fuel (slots.set i (some v))
        | _, _ => .error (.message ("duplicate field `" ++ name ++ "`"))

mutual
/-- `T::deserialize`. -/
def implOf : Ty → Impl Val
  | .bool => .andThen .bool fun x => .ok (.bool x)
  | .i8 => .andThen .i8 fun x => .ok (.i8 x)
  | .i16 => .andThen .i16 fun x => .ok (.i16 x)
  | .i32 => .andThen .i32 fun x => .ok (.i32 x)
  | .i64 => .andThen .i64 fun x => .ok (.i64 x)
  | .i128 => .i128
  | .u8 => .andThen .u8 fun x => .ok (.u8 x)
  | .u16 => .andThen .u16 fun x => .ok (.u16 x)
  | .u32 => .andThen .u32 fun x => .ok (.u32 x)
  | .u64 => .andThen .u64 fun x => .ok (.u64 x)
  | .u128 => .u128
  | .f32 => .andThen .f32 fun x => .ok (.f32 x)
  | .f64 => .andThen .f64 fun x => .ok (.f64 x)
  | .char => .andThen .char fun x => .ok (.char x)
  | .string => .andThen .string fun x => .ok (.str x)
  | .byteBuf => .andThen .byteBuf fun x => .ok (.bytes x)
  | .any => .any
  | .str => .str
  | .bytes => .bytes
  | .ignoredAny => .ignoredAny
  | .option ty => .option (.ok .none) (.andThen (implOf ty) fun v => .ok (.some v))
  | .unit => .andThen .unit fun _ => .ok .unit
  | .unitStruct name => .andThen (.unitStruct name) fun _ => .ok (.unitStruct name)
  | .newtypeStruct name ty =>
    .newtypeStruct name (.andThen (implOf ty) fun v => .ok (.newtypeStruct name v))
  | .seq ty => .andThen (.seq fun n => collectSeq (implOf ty) (n + 1) []) fun vs =>
      .ok (.seq (some vs.length) vs)
  | .tuple ts => .andThen (.tuple (implAll ts).length fun _ => collectTuple (implAll ts) [])
      fun vs => .ok (.tuple vs)
  | .tupleStruct name ts =>
    .andThen (.tupleStruct name (implAll ts).length fun _ => collectTuple (implAll ts) [])
      fun vs => .ok (.tupleStruct name vs)
  | .map kt vt => .andThen (.map fun n => collectMap (implOf kt) (implOf vt) (n + 1) []) fun es =>
      .ok (.map (some es.length) es)
  | .struct name fs => .andThen (.struct name (fs.map (·.1))
      (collectFields (implFields fs) (fs.length + 1) (fs.map fun _ => none)))
      fun vs => .ok (.struct name vs)
  | .enum name vs => .enum name (vs.map (·.1))
      (.andThen .identifier fun i =>
        if i.toNat < vs.length then .ok i else .error (unknownVariant i.toNat vs.length))
      fun i => implVariant name i i.toNat vs
/-- The implementations of the members of a tuple. -/
def implAll : List Ty → List (Impl Val)
  | [] => []
  | ty :: ts => implOf ty :: implAll ts
/-- The implementations of the fields of a struct. -/
def implFields : List (String × Ty) → List (String × Impl Val)
  | [] => []
  | (n, ty) :: fs => (n, implOf ty) :: implFields fs
/-- The generated `visit_enum`: a match on the checked index. -/
def implVariant (name : String) (i : UInt16) : Nat → List (String × VTy) → VariantImpl Val
  | _, [] => .error (.message "unreachable")
  | n + 1, _ :: vs => implVariant name i n vs
  | 0, (vn, vt) :: _ => implPayload name i.toUInt32 vn vt
/-- One arm of that match. -/
def implPayload (name : String) (i : UInt32) (vn : String) : VTy → VariantImpl Val
  | .unit => .unit (.ok (.unitVariant name i vn))
  | .newtype ty => .newtype (implOf ty) fun v => .ok (.newtypeVariant name i vn v)
  | .tuple ts => .tuple (implAll ts).length (fun _ => collectTuple (implAll ts) [])
      fun vs => .ok (.tupleVariant name i vn vs)
  | .struct fs => .struct (fs.map (·.1))
      (collectFields (implFields fs) (fs.length + 1) (fs.map fun _ => none))
      fun vs => .ok (.structVariant name i vn vs)
end

end Dlhn
