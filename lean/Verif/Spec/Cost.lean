import Verif.Model.Reader
import Verif.Spec.Wire
import Verif.Spec.Body
/-!
# Specification: what decoding costs

Reader calls made by a run, the parts of a value, and the types whose sequences
cannot have elements that are written as nothing.
-/
namespace Dlhn

/-- The number of reader calls (`read_exact` and `take(n).read_to_end`) a run on
`bs` makes, whether it succeeds or not. -/
def Prog.calls {ε α : Type} (t : Target) (fin : Ending) : Prog ε α → List UInt8 → Nat
  | done _, _ => 0
  | readExact n _ k, bs =>
    if h : n ≤ bs.length then 1 + calls t fin (k (takeVec bs h)) (bs.drop n) else 1
  | takeToEnd n _ k, bs =>
    if n ≤ bs.length then 1 + calls t fin (k (bs.take n)) (bs.drop n)
    else match fin with
      | .eof => 1 + calls t fin (k bs) []
      | .fail _ => 1
  | alloc n k, bs =>
    match t.allocate n with
    | some _ => 0
    | none => calls t fin k bs

namespace Spec

mutual
/-- The number of parts of a value: one for every value in it, and one for every
byte of its strings and byte strings. -/
def valParts : Val → Nat
  | .char c => 1 + (utf8 (String.singleton c)).length
  | .str s => 1 + (utf8 s).length
  | .bytes bs => 1 + bs.length
  | .some v => 1 + valParts v
  | .newtypeStruct _ v => 1 + valParts v
  | .newtypeVariant _ _ _ v => 1 + valParts v
  | .seq _ vs => 1 + valPartsAll vs
  | .tuple vs => 1 + valPartsAll vs
  | .tupleStruct _ vs => 1 + valPartsAll vs
  | .tupleVariant _ _ _ vs => 1 + valPartsAll vs
  | .map _ es => 1 + valPartsEntries es
  | .struct _ fs => 1 + valPartsFields fs
  | .structVariant _ _ _ fs => 1 + valPartsFields fs
  | _ => 1
/-- Sum over the elements. -/
def valPartsAll : List Val → Nat
  | [] => 0
  | v :: vs => valParts v + valPartsAll vs
/-- Sum over the keys and values. -/
def valPartsEntries : List (Val × Val) → Nat
  | [] => 0
  | (k, v) :: es => valParts k + valParts v + valPartsEntries es
/-- Sum over the fields. -/
def valPartsFields : List (String × Val) → Nat
  | [] => 0
  | (_, v) :: fs => valParts v + valPartsFields fs
end

mutual
/-- The number of parts of a type: one for every type and variant in it. -/
def tyParts : Ty → Nat
  | .option ty => 1 + tyParts ty
  | .newtypeStruct _ ty => 1 + tyParts ty
  | .seq ty => 1 + tyParts ty
  | .tuple ts => 1 + tyPartsAll ts
  | .tupleStruct _ ts => 1 + tyPartsAll ts
  | .map kt vt => 1 + tyParts kt + tyParts vt
  | .struct _ fs => 1 + tyPartsFields fs
  | .enum _ vs => 1 + tyPartsVariants vs
  | _ => 1
/-- Sum over the members. -/
def tyPartsAll : List Ty → Nat
  | [] => 0
  | ty :: ts => tyParts ty + tyPartsAll ts
/-- Sum over the fields. -/
def tyPartsFields : List (String × Ty) → Nat
  | [] => 0
  | (_, ty) :: fs => tyParts ty + tyPartsFields fs
/-- Sum over the variants. -/
def tyPartsVariants : List (String × VTy) → Nat
  | [] => 0
  | (_, vt) :: vs => 1 + tyPartsPayload vt + tyPartsVariants vs
/-- The parts of a payload. -/
def tyPartsPayload : VTy → Nat
  | .unit => 0
  | .newtype ty => tyParts ty
  | .tuple ts => tyPartsAll ts
  | .struct fs => tyPartsFields fs
end

mutual
/-- Types all of whose values are written as at least one byte: everything but
units, and structs and tuples made of such types only. -/
def Wide : Ty → Prop
  | .unit => False
  | .unitStruct _ => False
  | .newtypeStruct _ ty => Wide ty
  | .tuple ts => SomeWide ts
  | .tupleStruct _ ts => SomeWide ts
  | .struct _ fs => SomeFieldWide fs
  | .i128 => False
  | .u128 => False
  | _ => True
/-- Some member is. -/
def SomeWide : List Ty → Prop
  | [] => False
  | ty :: ts => Wide ty ∨ SomeWide ts
/-- Some field is. -/
def SomeFieldWide : List (String × Ty) → Prop
  | [] => False
  | (_, ty) :: fs => Wide ty ∨ SomeFieldWide fs
end

mutual
/-- Types in which every sequence has elements that take space. -/
def Dense : Ty → Prop
  | .option ty => Dense ty
  | .newtypeStruct _ ty => Dense ty
  | .seq ty => Wide ty ∧ Dense ty
  | .tuple ts => AllDense ts
  | .tupleStruct _ ts => AllDense ts
  | .map kt vt => Dense kt ∧ Dense vt
  | .struct _ fs => FieldsDense fs
  | .enum _ vs => VariantsDense vs
  | _ => True
/-- All members are. -/
def AllDense : List Ty → Prop
  | [] => True
  | ty :: ts => Dense ty ∧ AllDense ts
/-- All fields are. -/
def FieldsDense : List (String × Ty) → Prop
  | [] => True
  | (_, ty) :: fs => Dense ty ∧ FieldsDense fs
/-- All variants are. -/
def VariantsDense : List (String × VTy) → Prop
  | [] => True
  | (_, vt) :: vs => PayloadDense vt ∧ VariantsDense vs
/-- The payload is. -/
def PayloadDense : VTy → Prop
  | .unit => True
  | .newtype ty => Dense ty
  | .tuple ts => AllDense ts
  | .struct fs => FieldsDense fs
end

mutual
/-- The number of parts of a body: one for every body in it, and one for every
map key and every byte of its numbers, strings, byte strings and keys. -/
def bodySize : Body → Nat
  | .bigUInt v => 1 + v.bytes.length
  | .bigInt v => 1 + v.bytes.length
  | .bigDecimal v => 1 + v.signedBytes.length
  | .string s => 1 + (utf8 s).length
  | .binary bs => 1 + bs.length
  | .some b => 1 + bodySize b
  | .array bs => 1 + bodySizeAll bs
  | .tuple bs => 1 + bodySizeAll bs
  | .map es => 1 + bodySizeEntries es
  | .enum _ b => 1 + bodySize b
  | _ => 1
/-- Sum over the elements. -/
def bodySizeAll : List Body → Nat
  | [] => 0
  | b :: bs => bodySize b + bodySizeAll bs
/-- Sum over the keys and values. -/
def bodySizeEntries : List (String × Body) → Nat
  | [] => 0
  | (k, b) :: es => 1 + (utf8 k).length + bodySize b + bodySizeEntries es
end

/-- Headers whose arrays have elements that take space. -/
def DenseHeader (h : Header) : Prop := ∀ e, .array e ∈ headerParts h → ¬ ZeroWidth e

end Spec
end Dlhn
