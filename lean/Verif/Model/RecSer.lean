import Verif.Model.Rec
import Verif.Model.Ser
/-!
# Serializing values of recursive types

`value.serialize(..)` of a recursive type calls itself for every value of a named type inside it
(through `Box`, `Vec`, `Option`, ...). This is the serializer of Model/Ser.lean, following the
type of the value as the derived `Serialize` does, and counting the nested calls of named types.
A value that is not of the type is passed to the serializer as it is; there is none in Rust.
-/
namespace Dlhn.Rec

open Ser

/-- The index a value of an enum names its variant by. -/
def variantOf : Val → Nat
  | .unitVariant _ i _ => i.toNat
  | .newtypeVariant _ i _ _ => i.toNat
  | .tupleVariant _ i _ _ => i.toNat
  | .structVariant _ i _ _ => i.toNat
  | _ => 0

/-- Elements in order, dlhn/src/ser.rs:268-283. -/
def eachVal (f : Val → WProg SerErr) : List Val → WProg SerErr
  | [] => .skip
  | v :: vs => (f v).andThen (eachVal f vs)

/-- Entries in order, dlhn/src/ser.rs:336-358. -/
def eachPair (f : Val → WProg SerErr) : List (Val × Val) → WProg SerErr
  | [] => .skip
  | (k, v) :: es => (serKey k).andThen ((f v).andThen (eachPair f es))

mutual
/-- `value.serialize(&mut Serializer)`, where `call n v` is what happens when a value of the named
type `n` is serialized. The cases are those of `Ser.ser` (dlhn/src/ser.rs:151-260). -/
def serBody (call : String → Val → WProg SerErr) : RecTy → Val → WProg SerErr
  | .named n, v => call n v
  | .option T, .some w => (emit [1]).andThen (serBody call T w)
  | .newtypeStruct _ T, .newtypeStruct _ w => serBody call T w
  | .seq T, .seq h vs => (serHint h).andThen (eachVal (fun w => serBody call T w) vs)
  | .tuple Ts, .tuple vs => serEach call Ts vs
  | .tupleStruct _ Ts, .tupleStruct _ vs => serEach call Ts vs
  | .map _ T, .map h es => (serHint h).andThen (eachPair (fun w => serBody call T w) es)
  | .struct _ fts, .struct _ fs => serNamedFields call fts fs
  | .enum _ vs, v => serVariant call (variantOf v) vs v
  | _, v => ser v
/-- Members in order, dlhn/src/ser.rs:285-334. -/
def serEach (call : String → Val → WProg SerErr) : List RecTy → List Val → WProg SerErr
  | T :: Ts, v :: vs => (serBody call T v).andThen (serEach call Ts vs)
  | _, vs => serAll vs
/-- Fields in order, dlhn/src/ser.rs:360-397. -/
def serNamedFields (call : String → Val → WProg SerErr) :
    List (String × RecTy) → List (String × Val) → WProg SerErr
  | (_, T) :: fts, (_, v) :: fs => (serBody call T v).andThen (serNamedFields call fts fs)
  | _, fs => serFields fs
/-- The arm of the derived `match self`. -/
def serVariant (call : String → Val → WProg SerErr) :
    Nat → List (String × RecVTy) → Val → WProg SerErr
  | n + 1, _ :: vs, v => serVariant call n vs v
  | 0, (_, vt) :: _, v => serPayload call vt v
  | _, [], v => ser v
/-- dlhn/src/ser.rs:171-178, 191-203, 224-233, 251-260. -/
def serPayload (call : String → Val → WProg SerErr) : RecVTy → Val → WProg SerErr
  | .newtype T, .newtypeVariant _ i _ w => (serU32 i).andThen (serBody call T w)
  | .tuple Ts, .tupleVariant _ i _ vs => (serU32 i).andThen (serEach call Ts vs)
  | .struct fts, .structVariant _ i _ fs => (serU32 i).andThen (serNamedFields call fts fs)
  | _, v => ser v
end

/-- Serializing a value of a named type with room for `stack` nested calls of the named types'
`serialize`. -/
def serNamed (defs : Defs) : (stack : Nat) → String → Val → WProg SerErr
  | 0, _, _ => .done (.panic .stackOverflow)
  | stack + 1, n, v => serBody (serNamed defs stack) (defs n) v

end Dlhn.Rec
