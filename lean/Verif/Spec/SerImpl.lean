import Verif.Model.SerImpl
import Verif.Spec.Wire
/-!
# Specification of what `Serialize` implementations write

Only the types of implementations are taken from the model.
-/
namespace Dlhn.Spec

/-- A length as 64-bit integer. (Lengths of Rust values are below `2 ^ 64`, so the
remainder is the length.) -/
def lengthWire (n : Nat) : List UInt8 := varint 64 (n % 2 ^ 64)

/-- Bytes with their length. -/
def counted (bs : List UInt8) : List UInt8 := lengthWire bs.length ++ bs

/-- The string the implementation serializes in human-readable form, if that is what
it does. -/
def keyText : SerImpl → Option String
  | .humanReadable k => keyText (k true)
  | .str s => some s
  | .collectStr s => some s
  | _ => none

/-- The error of an implementation that does not serialize a string in
human-readable form. -/
def keyError : SerImpl → SerErr
  | .humanReadable k => keyError (k true)
  | .error e => e
  | .i128 _ => .message "i128 is not supported"
  | .u128 _ => .message "u128 is not supported"
  | _ => .unsupportedKeyType

/-- Bytes written so far and the error, if any: first `a`, then, told the error of
`a`, `k`. -/
def following (a : List UInt8 × Option SerErr) (k : Option SerErr → List UInt8 × Option SerErr) :
    List UInt8 × Option SerErr :=
  (a.1 ++ (k a.2).1, (k a.2).2)

mutual
/-- What an implementation writes and returns when no write fails. -/
def written : SerImpl → List UInt8 × Option SerErr
  | .error e => ([], some e)
  | .humanReadable k => written (k false)
  | .bool v => ([if v then 1 else 0], none)
  | .i8 v => ([v.toUInt8], none)
  | .i16 v => (varint 16 (zigzag v.toInt), none)
  | .i32 v => (varint 32 (zigzag v.toInt), none)
  | .i64 v => (varint 64 (zigzag v.toInt), none)
  | .i128 _ => ([], some (.message "i128 is not supported"))
  | .u8 v => ([v], none)
  | .u16 v => (varint 16 v.toNat, none)
  | .u32 v => (varint 32 v.toNat, none)
  | .u64 v => (varint 64 v.toNat, none)
  | .u128 _ => ([], some (.message "u128 is not supported"))
  | .f32 bits => (leBytes 4 bits.toNat, none)
  | .f64 bits => (leBytes 8 bits.toNat, none)
  | .char c => (counted (utf8 (String.singleton c)), none)
  | .str s => (counted (utf8 s), none)
  | .collectStr s => (counted (utf8 s), none)
  | .bytes bs => (counted bs, none)
  | .none => ([0], none)
  | .some v => (1 :: (written v).1, (written v).2)
  | .unit => ([], none)
  | .unitStruct _ => ([], none)
  | .unitVariant _ i _ => (varint 32 i.toNat, none)
  | .newtypeStruct _ v => written v
  | .newtypeVariant _ i _ v => (varint 32 i.toNat ++ (written v).1, (written v).2)
  | .seq none k => writtenSeq k
  | .seq (some n) k => (lengthWire n ++ (writtenSeq k).1, (writtenSeq k).2)
  | .tuple _ k => writtenSeq k
  | .tupleStruct _ _ k => writtenSeq k
  | .tupleVariant _ i _ _ k => (varint 32 i.toNat ++ (writtenSeq k).1, (writtenSeq k).2)
  | .map none k => writtenMap k
  | .map (some n) k => (lengthWire n ++ (writtenMap k).1, (writtenMap k).2)
  | .struct _ _ k => writtenStruct k
  | .structVariant _ i _ _ k => (varint 32 i.toNat ++ (writtenStruct k).1, (writtenStruct k).2)
/-- Elements one after the other. -/
def writtenSeq : SeqSer → List UInt8 × Option SerErr
  | .finish => ([], none)
  | .error e => ([], some e)
  | .element v k => following (written v) fun r => writtenSeq (k r)
/-- Keys and values; a key that is not a string is an error and writes nothing. -/
def writtenMap : MapSer → List UInt8 × Option SerErr
  | .finish => ([], none)
  | .error e => ([], some e)
  | .key v k => match keyText v with
    | some s => following (counted (utf8 s), none) fun r => writtenMap (k r)
    | none => writtenMap (k (some (keyError v)))
  | .value v k => following (written v) fun r => writtenMap (k r)
/-- Fields; skipped ones and all names write nothing. -/
def writtenStruct : StructSer → List UInt8 × Option SerErr
  | .finish => ([], none)
  | .error e => ([], some e)
  | .field _ v k => following (written v) fun r => writtenStruct (k r)
  | .skipField _ k => writtenStruct (k none)
end

/-- `Ok(())` or the error. -/
def toResult : Option SerErr → Outcome SerErr Unit
  | none => .ok ()
  | some e => .err e

mutual
/-- The implementation passes errors on: given an error it returns it. -/
def PassesOn : SerImpl → Prop
  | .humanReadable k => PassesOn (k false)
  | .some v => PassesOn v
  | .newtypeStruct _ v => PassesOn v
  | .newtypeVariant _ _ _ v => PassesOn v
  | .seq _ k => PassesOnSeq k
  | .tuple _ k => PassesOnSeq k
  | .tupleStruct _ _ k => PassesOnSeq k
  | .tupleVariant _ _ _ _ k => PassesOnSeq k
  | .map _ k => PassesOnMap k
  | .struct _ _ k => PassesOnStruct k
  | .structVariant _ _ _ _ k => PassesOnStruct k
  | _ => True
/-- The same with a `SerializeSeq`. -/
def PassesOnSeq : SeqSer → Prop
  | .element v k => PassesOn v ∧ (∀ e, k (some e) = .error e) ∧ PassesOnSeq (k none)
  | _ => True
/-- The same with a `SerializeMap`. -/
def PassesOnMap : MapSer → Prop
  | .key _ k => (∀ e, k (some e) = .error e) ∧ PassesOnMap (k none)
  | .value v k => PassesOn v ∧ (∀ e, k (some e) = .error e) ∧ PassesOnMap (k none)
  | _ => True
/-- The same with a `SerializeStruct`. -/
def PassesOnStruct : StructSer → Prop
  | .field _ v k => PassesOn v ∧ (∀ e, k (some e) = .error e) ∧ PassesOnStruct (k none)
  | .skipField _ k => PassesOnStruct (k none)
  | _ => True
end

end Dlhn.Spec
