import Verif.Model.Serde
import Verif.Model.Reader
import Verif.Model.Varint
import Verif.Model.ZigZag
/-!
# The deserializer

Transcription of dlhn/src/de.rs together with what serde's `Visitor`s of the
standard types and of derived types do with it: a `Vec` visitor asks for elements
until `None`; a tuple visitor asks for its number of elements; a derived struct
visitor asks for key and value until `None`; a derived enum visitor maps the
index to a variant and reports an error for unknown indices.
-/
namespace Dlhn

/-- `de::Error`, dlhn/src/de.rs:11-17. The texts of messages are those of serde's
`invalid_value` for the crate and the generated code, and are shortened for some
types of the standard library (Model/StdTypes.lean). -/
inductive DeErr where
  | read
  | charSize
  | unsupportedKeyType
  | message (s : String)
  deriving DecidableEq, Repr

/-- `de::Error::custom`, dlhn/src/de.rs:19-23. The argument is the text of what is passed. -/
def DeErr.custom (text : String) : DeErr := .message text
/-- `impl Display for Error`, dlhn/src/de.rs:36-45: what `to_string` gives. -/
def DeErr.display : DeErr → String
  | .read => "Read error"
  | .charSize => "The size of the char is more than 32bit"
  | .unsupportedKeyType => "Unsupported Key Type"
  | .message s => s
/-- `impl de::Expected for Error`, dlhn/src/de.rs:25-34. -/
def DeErr.expected : DeErr → String
  | .read => "Read error"
  | .charSize => "The size of the char is more than 32bit"
  | .unsupportedKeyType => "Unsupported Key Type"
  | .message s => s

/-- serde's `Error::invalid_value(unexp, exp)`, called in dlhn/src/format/date.rs and
dlhn/src/format/date_time.rs and by generated code. -/
def invalidValue (unexp exp : String) : DeErr :=
  .custom ("invalid value: " ++ unexp ++ ", expected " ++ exp)
/-- What the generated visitor of an enum with so many variants answers to an index that none of
them has: `invalid_value(Unexpected::Unsigned(i), &"variant index 0 <= i < count")`. -/
def unknownVariant (i count : Nat) : DeErr :=
  invalidValue ("integer `" ++ toString i ++ "`") ("variant index 0 <= i < " ++ toString count)

namespace De

open PrefixVarint

/-- `.or(Err(Error::Read))`. -/
def orRead : IoErr → DeErr := fun _ => .read

/-- `p.or(Err(Error::Read))`. -/
def io {α : Type} (p : Prog IoErr α) : Prog DeErr α := p.mapErr orRead

/-- `self.reader.read_exact(&mut buf).or(Err(Error::Read))?`. -/
def readBytes (n : Nat) : Prog DeErr (Vector UInt8 n) := .readExact n orRead fun b => pure b

/-- `deserialize_bool`, dlhn/src/de.rs:69-80. -/
def deBool : Prog DeErr Bool := do
  let buf ← readBytes 1
  match buf[0].toNat with
  | 0 => pure false
  | 1 => pure true
  | _ => .done (.err .read)

/-- `deserialize_i8`, dlhn/src/de.rs:82-89. -/
def deI8 : Prog DeErr Int8 := do
  let buf ← readBytes 1
  pure buf[0].toInt8

/-- `deserialize_i16`, dlhn/src/de.rs:91-100. -/
def deI16 : Prog DeErr Int16 := do
  let v ← io decodeU16
  pure (ZigZag.decodeI16 v)

/-- `deserialize_i32`, dlhn/src/de.rs:102-111. -/
def deI32 : Prog DeErr Int32 := do
  let v ← io decodeU32
  pure (ZigZag.decodeI32 v)

/-- `deserialize_i64`, dlhn/src/de.rs:113-122. -/
def deI64 : Prog DeErr Int64 := do
  let v ← io decodeU64
  pure (ZigZag.decodeI64 v)

/-- `deserialize_u8`, dlhn/src/de.rs:135-142. -/
def deU8 : Prog DeErr UInt8 := do
  let buf ← readBytes 1
  pure buf[0]

/-- `deserialize_u16`, dlhn/src/de.rs:144-149. -/
def deU16 : Prog DeErr UInt16 := io decodeU16
/-- `deserialize_u32`, dlhn/src/de.rs:151-156. -/
def deU32 : Prog DeErr UInt32 := io decodeU32
/-- `deserialize_u64`, dlhn/src/de.rs:158-163. -/
def deU64 : Prog DeErr UInt64 := io decodeU64

/-- `deserialize_f32`, dlhn/src/de.rs:172-179 (bits). -/
def deF32 : Prog DeErr UInt32 := do
  let b ← readBytes 4
  pure (u32le b[0] b[1] b[2] b[3])

/-- `deserialize_f64`, dlhn/src/de.rs:181-188 (bits). -/
def deF64 : Prog DeErr UInt64 := do
  let b ← readBytes 8
  pure (u64le b[0] b[1] b[2] b[3] b[4] b[5] b[6] b[7])

/-- `String::from_utf8(bs)`. -/
def fromUtf8 (bs : List UInt8) : Option String := String.fromUTF8? ⟨bs.toArray⟩

/-- `deserialize_string`, dlhn/src/de.rs:210-237. Below 128 bytes it reads into a
stack buffer; otherwise `take(len).read_to_string`, which fails on invalid UTF-8,
and then compares the number of bytes read with `len as usize`. -/
def deString (t : Target) : Prog DeErr String := do
  let len ← io decodeU64
  if len < 128 then
    let buf ← readBytes len.toNat
    match fromUtf8 buf.toList with
    | none => .done (.err .read)
    | some s => pure s
  else
    .takeToEnd len.toNat orRead fun bs =>
      match fromUtf8 bs with
      | none => .done (.err .read)
      | some s => if bs.length ≠ t.asUsize len then .done (.err .read) else pure s

/-- `deserialize_char`, dlhn/src/de.rs:190-201. -/
def deChar (t : Target) : Prog DeErr Char := do
  let s ← deString t
  match s.toList with
  | [] => .done (.err .charSize)
  | c :: _ => pure c

/-- The loop of `deserialize_byte_buf`, dlhn/src/de.rs:256-262. `len` is the
announced length, `lim` is `len as usize`, `pos` and `result` the loop state.
`fuel` only makes the definition total; running out of it is the panic `hang`,
which is proved unreachable. -/
def byteBufLoop (len lim : Nat) : Nat → List UInt8 → Nat → Prog DeErr (List UInt8)
  | 0, _, _ => .done (.panic .hang)
  | fuel + 1, result, pos =>
    if result.length < lim then do
      let buf ← readBytes (min 4096 (len - pos))
      byteBufLoop len lim fuel (result ++ buf.toList) (pos + min 4096 (len - pos))
    else
      pure result

/-- `deserialize_byte_buf`, dlhn/src/de.rs:246-269. The growth of `result` while
data arrive is not an `alloc` node. -/
def deByteBuf (t : Target) : Prog DeErr (List UInt8) := do
  let len ← io decodeU64
  if len > 4096 then
    .alloc 4096 (byteBufLoop len.toNat (t.asUsize len) (t.asUsize len + 1) [] 0)
  else
    .alloc len.toNat do
      let buf ← readBytes len.toNat
      pure buf.toList

/-- A visitor asking for elements until `SeqDeserializer` / `MapDeserializer`
has counted down to zero, dlhn/src/de.rs:403-418, 435-455. -/
def times {α : Type} : Nat → Prog DeErr α → Prog DeErr (List α)
  | 0, _ => pure []
  | n + 1, p => do
    let a ← p
    let as ← times n p
    pure (a :: as)

mutual
/-- `T::deserialize(&mut Deserializer)`. -/
def de (t : Target) : Ty → Prog DeErr Val
  | .bool => do pure (.bool (← deBool))
  | .i8 => do pure (.i8 (← deI8))
  | .i16 => do pure (.i16 (← deI16))
  | .i32 => do pure (.i32 (← deI32))
  | .i64 => do pure (.i64 (← deI64))
  -- serde's default `deserialize_i128` (commented out, dlhn/src/de.rs:124-133)
  | .i128 => .done (.err (.message "i128 is not supported"))
  | .u8 => do pure (.u8 (← deU8))
  | .u16 => do pure (.u16 (← deU16))
  | .u32 => do pure (.u32 (← deU32))
  | .u64 => do pure (.u64 (← deU64))
  -- serde's default `deserialize_u128` (commented out, dlhn/src/de.rs:165-170)
  | .u128 => .done (.err (.message "u128 is not supported"))
  | .f32 => do pure (.f32 (← deF32))
  | .f64 => do pure (.f64 (← deF64))
  | .char => do pure (.char (← deChar t))
  | .string => do pure (.str (← deString t))
  | .byteBuf => do pure (.bytes (← deByteBuf t))
  -- `todo!()`, dlhn/src/de.rs:62-67, 203-208, 239-244, 377-382
  | .any => .done (.panic .todo)
  | .str => .done (.panic .todo)
  | .bytes => .done (.panic .todo)
  | .ignoredAny => .done (.panic .todo)
  -- `deserialize_option`, dlhn/src/de.rs:271-280
  | .option ty => do
    if ← deBool then
      pure (.some (← de t ty))
    else
      pure .none
  -- dlhn/src/de.rs:282-298
  | .unit => pure .unit
  | .unitStruct name => pure (.unitStruct name)
  -- dlhn/src/de.rs:300-309
  | .newtypeStruct name ty => do pure (.newtypeStruct name (← de t ty))
  -- `deserialize_seq`, dlhn/src/de.rs:311-317
  | .seq ty => do
    let count ← io decodeU64
    let vs ← times (t.asUsize count) (de t ty)
    pure (.seq (some vs.length) vs)
  -- dlhn/src/de.rs:319-336
  | .tuple ts => do pure (.tuple (← deAll t ts))
  | .tupleStruct name ts => do pure (.tupleStruct name (← deAll t ts))
  -- `deserialize_map`, dlhn/src/de.rs:338-344
  | .map kt vt => do
    let count ← io decodeU64
    let es ← times (t.asUsize count) do
      let k ← de t kt
      let v ← de t vt
      pure (k, v)
    pure (.map (some es.length) es)
  -- `deserialize_struct`, dlhn/src/de.rs:346-356, 457-492
  | .struct name fs => do pure (.struct name (← deFields t fs))
  -- `deserialize_enum`, dlhn/src/de.rs:358-375, 494-519: the variant index is
  -- read by `deserialize_identifier`, i.e. as a `u16`
  | .enum name vs => do
    let i ← io decodeU16
    deVariant t name i i.toNat vs
/-- Elements of a tuple in order. -/
def deAll (t : Target) : List Ty → Prog DeErr (List Val)
  | [] => pure []
  | ty :: ts => do
    let v ← de t ty
    let vs ← deAll t ts
    pure (v :: vs)
/-- Fields of a struct in order; the keys come from the type, not the input. -/
def deFields (t : Target) : List (String × Ty) → Prog DeErr (List (String × Val))
  | [] => pure []
  | (n, ty) :: fs => do
    let v ← de t ty
    let vs ← deFields t fs
    pure ((n, v) :: vs)
/-- Pick the variant with the given index (derived visitors reject unknown
indices with a message) and read its payload, dlhn/src/de.rs:521-547. `i` is the
index read, the next argument counts down: what is gone of it when the list ends is the number of
variants. -/
def deVariant (t : Target) (name : String) (i : UInt16) :
    Nat → List (String × VTy) → Prog DeErr Val
  | n, [] => .done (.err (unknownVariant i.toNat (i.toNat - n)))
  | n + 1, _ :: vs => deVariant t name i n vs
  | 0, (vn, vt) :: _ => dePayload t name i.toUInt32 vn vt
/-- `VariantAccess` methods, dlhn/src/de.rs:521-547. -/
def dePayload (t : Target) (name : String) (i : UInt32) (vn : String) : VTy → Prog DeErr Val
  | .unit => pure (.unitVariant name i vn)
  | .newtype ty => do pure (.newtypeVariant name i vn (← de t ty))
  | .tuple ts => do pure (.tupleVariant name i vn (← deAll t ts))
  | .struct fs => do pure (.structVariant name i vn (← deFields t fs))
end

end De
end Dlhn
