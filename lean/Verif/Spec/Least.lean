import Verif.Spec.DeriveDe
/-!
# Specification: the bytes a value of a type with derived implementations is read from

The least number, and the number of parts that are read.
-/
namespace Dlhn.Spec

mutual
/-- At least so many. (Types that are never read, like `&str`, count as one.) -/
def leastRead : RTy → Nat
  | .unit => 0
  | .f32 => 4
  | .f64 => 8
  | .date => 2
  | .timeDate => 2
  | .dateTime => 2
  | .offsetDateTime => 2
  | .tuple Ts => leastReadAll Ts
  | .struct _ (.named fs) => leastReadFields fs
  | .struct _ (.unnamed [.mk _ _ T]) => leastRead T
  | .struct _ (.unnamed fs) => leastReadFields fs
  | .struct _ .unit => 0
  | _ => 1
/-- Sum over the members. -/
def leastReadAll : List RTy → Nat
  | [] => 0
  | T :: Ts => leastRead T + leastReadAll Ts
/-- Sum over the fields that are read. -/
def leastReadFields : List RField → Nat
  | [] => 0
  | .mk attrs _ T :: fs => (if SkippedDe attrs then 0 else leastRead T) + leastReadFields fs
end

mutual
/-- The number of parts of a value that are read: one for every value in it, and one for every byte
of its texts, buffers and digits. (Numbers of other crates count as one.) Fields that are not read
do not count: their values are those of `Default`. -/
def readSize : (T : RTy) → Derive.Carrier T → Nat
  | .string, s => 1 + (utf8 s).length
  | .byteBuf, bs => 1 + List.length bs
  | .bigUint, v => 1 + v.bytes.length
  | .bigInt, v => 1 + v.bytes.length
  | .bigDecimal, v => 1 + v.signedBytes.length
  | .option _, none => 1
  | .option T, some v => 1 + readSize T v
  | .vec T, vs => 1 + (vs.map fun v => readSize T v).sum
  | .btreeMap T, es => 1 + (es.map fun e => 1 + (utf8 e.1).length + readSize T e.2).sum
  | .hashMap T, es => 1 + (es.map fun e => 1 + (utf8 e.1).length + readSize T e.2).sum
  | .tuple Ts, vs => 1 + readSizeAll Ts vs
  | .struct _ (.named fs), vs => 1 + readSizeFields fs vs
  | .struct _ (.unnamed [.mk _ _ T]), (v, _) => 1 + readSize T v
  | .struct _ (.unnamed fs), vs => 1 + readSizeFields fs vs
  | .enum _ vs, v => 1 + readSizeVariant vs v
  | _, _ => 1
/-- Sum over the members. -/
def readSizeAll : (Ts : List RTy) → Derive.TupleCarrier Ts → Nat
  | [], _ => 0
  | T :: Ts, (v, vs) => readSize T v + readSizeAll Ts vs
/-- Sum over the fields that are read. -/
def readSizeFields : (fs : List RField) → Derive.FieldCarrier fs → Nat
  | [], _ => 0
  | .mk attrs _ T :: fs, (v, vs) =>
    (if SkippedDe attrs then 0 else readSize T v) + readSizeFields fs vs
/-- Of the variant the value has. -/
def readSizeVariant : (vs : List RVariant) → Derive.VariantsCarrier vs → Nat
  | .mk _ _ (.named fs) :: _, .inl v => readSizeFields fs v
  | .mk _ _ (.unnamed fs) :: _, .inl v => readSizeFields fs v
  | .mk _ _ .unit :: _, .inl _ => 0
  | .mk _ _ _ :: vs, .inr v => readSizeVariant vs v
end

/-- Types in which every `Vec` that is read has elements that take space. -/
def DenseRead (T : RTy) : Prop := ∀ U, .vec U ∈ readParts T → 0 < leastRead U

end Dlhn.Spec
