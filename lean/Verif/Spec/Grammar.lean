import Verif.Spec.Wire
/-!
# Specification: which bytes are read as which value

The encodings a serializer writes are in Spec/Wire.lean. This is the grammar of all the
byte strings that are read, with their meaning, in terms of arithmetic and
concatenation only.
-/
namespace Dlhn.Spec

/-- `Number w n bs`: `bs` is a form of the number `n` as an integer of `w` bits (16, 32 or 64).

With `k ≤ w / 8` bytes, `n` having at most `7 * k` bits: the first byte has `k - 1` leading
ones, a zero, and the low `8 - k` bits of `n`; the other bits follow little-endian.
With `w / 8 + 1` bytes: a first byte with at least `w / 8` leading ones, whatever its other
bits, and all of `n` little-endian. -/
def Number (w n : Nat) (bs : List UInt8) : Prop :=
  (∃ k, 1 ≤ k ∧ k ≤ w / 8 ∧ n < 2 ^ (7 * k) ∧
    bs = UInt8.ofNat (256 - 2 ^ (9 - k) + n % 2 ^ (8 - k)) :: leBytes (k - 1) (n / 2 ^ (8 - k))) ∨
  (∃ b : UInt8, 256 - 2 ^ (8 - w / 8) ≤ b.toNat ∧ n < 2 ^ w ∧ bs = b :: leBytes (w / 8) n)

/-- The number of bytes, and the bytes. -/
def Prefixed (body bs : List UInt8) : Prop :=
  ∃ l, Number 64 body.length l ∧ bs = l ++ body

/-- One part after the other. -/
def Joined {α : Type} (R : α → List UInt8 → Prop) : List α → List UInt8 → Prop
  | [], bs => bs = []
  | a :: as, bs => ∃ u w, bs = u ++ w ∧ R a u ∧ Joined R as w

mutual
/-- `Denotes ty v bs`: the byte string `bs` stands for the value `v` of type `ty`. -/
def Denotes : Ty → Val → List UInt8 → Prop
  | .bool, v, bs => (v = .bool false ∧ bs = [0]) ∨ (v = .bool true ∧ bs = [1])
  | .i8, v, bs => ∃ x : Int8, v = .i8 x ∧ bs = [x.toUInt8]
  | .i16, v, bs => ∃ x : Int16, v = .i16 x ∧ Number 16 (zigzag x.toInt) bs
  | .i32, v, bs => ∃ x : Int32, v = .i32 x ∧ Number 32 (zigzag x.toInt) bs
  | .i64, v, bs => ∃ x : Int64, v = .i64 x ∧ Number 64 (zigzag x.toInt) bs
  | .u8, v, bs => ∃ x, v = .u8 x ∧ bs = [x]
  | .u16, v, bs => ∃ x : UInt16, v = .u16 x ∧ Number 16 x.toNat bs
  | .u32, v, bs => ∃ x : UInt32, v = .u32 x ∧ Number 32 x.toNat bs
  | .u64, v, bs => ∃ x : UInt64, v = .u64 x ∧ Number 64 x.toNat bs
  | .f32, v, bs => ∃ x : UInt32, v = .f32 x ∧ bs = leBytes 4 x.toNat
  | .f64, v, bs => ∃ x : UInt64, v = .f64 x ∧ bs = leBytes 8 x.toNat
  -- the first character of a string; what follows it in the string is dropped
  | .char, v, bs => ∃ c cs, v = .char c ∧ Prefixed (utf8 (String.ofList (c :: cs))) bs
  | .string, v, bs => ∃ s, v = .str s ∧ Prefixed (utf8 s) bs
  | .byteBuf, v, bs => ∃ body, v = .bytes body ∧ Prefixed body bs
  -- never read
  | .i128, _, _ => False
  | .u128, _, _ => False
  | .any, _, _ => False
  | .str, _, _ => False
  | .bytes, _, _ => False
  | .ignoredAny, _, _ => False
  | .option ty, v, bs => (v = .none ∧ bs = [0]) ∨ ∃ w u, v = .some w ∧ bs = 1 :: u ∧ Denotes ty w u
  | .unit, v, bs => v = .unit ∧ bs = []
  | .unitStruct name, v, bs => v = .unitStruct name ∧ bs = []
  | .newtypeStruct name ty, v, bs => ∃ w, v = .newtypeStruct name w ∧ Denotes ty w bs
  | .seq ty, v, bs => ∃ vs l u, v = .seq (some vs.length) vs ∧ bs = l ++ u ∧
      Number 64 vs.length l ∧ Joined (Denotes ty) vs u
  | .tuple ts, v, bs => ∃ vs, v = .tuple vs ∧ DenotesAll ts vs bs
  | .tupleStruct name ts, v, bs => ∃ vs, v = .tupleStruct name vs ∧ DenotesAll ts vs bs
  | .map kt vt, v, bs => ∃ es l u, v = .map (some es.length) es ∧ bs = l ++ u ∧
      Number 64 es.length l ∧
      Joined (fun e x => ∃ a b, x = a ++ b ∧ Denotes kt e.1 a ∧ Denotes vt e.2 b) es u
  | .struct name fs, v, bs => ∃ vs, v = .struct name vs ∧ DenotesFields fs vs bs
  -- the index of the variant as a 16-bit number, and its payload
  | .enum name vs, v, bs => ∃ i l u, bs = l ++ u ∧ Number 16 i l ∧ DenotesVariant name i i vs v u
/-- Member by member. -/
def DenotesAll : List Ty → List Val → List UInt8 → Prop
  | [], vs, bs => vs = [] ∧ bs = []
  | ty :: ts, vs, bs => ∃ w ws u x, vs = w :: ws ∧ bs = u ++ x ∧ Denotes ty w u ∧ DenotesAll ts ws x
/-- Field by field; names are not encoded. -/
def DenotesFields : List (String × Ty) → List (String × Val) → List UInt8 → Prop
  | [], fs, bs => fs = [] ∧ bs = []
  | (n, ty) :: ts, fs, bs => ∃ w ws u x, fs = (n, w) :: ws ∧ bs = u ++ x ∧ Denotes ty w u ∧
      DenotesFields ts ws x
/-- The payload of the variant at position `k` of the list, whose index is `i`. -/
def DenotesVariant (name : String) (i : Nat) :
    Nat → List (String × VTy) → Val → List UInt8 → Prop
  | _, [], _, _ => False
  | k + 1, _ :: vs, v, bs => DenotesVariant name i k vs v bs
  | 0, (vn, vt) :: _, v, bs => DenotesPayload name (UInt32.ofNat i) vn vt v bs
/-- The payload of a variant. -/
def DenotesPayload (name : String) (i : UInt32) (vn : String) : VTy → Val → List UInt8 → Prop
  | .unit, v, bs => v = .unitVariant name i vn ∧ bs = []
  | .newtype ty, v, bs => ∃ w, v = .newtypeVariant name i vn w ∧ Denotes ty w bs
  | .tuple ts, v, bs => ∃ vs, v = .tupleVariant name i vn vs ∧ DenotesAll ts vs bs
  | .struct fs, v, bs => ∃ vs, v = .structVariant name i vn vs ∧ DenotesFields fs vs bs
end

/-! ## Several forms of one length -/

/-- `as` equals `bs` except that 192 in `bs` may be any byte from 192 on in `as`, and 240 any
byte from 240 on. -/
def Blurred : List UInt8 → List UInt8 → Prop
  | [], bs => bs = []
  | _ :: _, [] => False
  | a :: as, b :: bs => (a = b ∨ (b = 192 ∧ 192 ≤ a) ∨ (b = 240 ∧ 240 ≤ a)) ∧ Blurred as bs

mutual
/-- The type contains no integers of 16 or 32 bits. -/
def NoNarrow : Ty → Prop
  | .i16 => False
  | .i32 => False
  | .u16 => False
  | .u32 => False
  | .option ty => NoNarrow ty
  | .newtypeStruct _ ty => NoNarrow ty
  | .seq ty => NoNarrow ty
  | .tuple ts => AllNoNarrow ts
  | .tupleStruct _ ts => AllNoNarrow ts
  | .map kt vt => NoNarrow kt ∧ NoNarrow vt
  | .struct _ fs => FieldsNoNarrow fs
  | .enum _ vs => VariantsNoNarrow vs
  | _ => True
/-- No member contains any. -/
def AllNoNarrow : List Ty → Prop
  | [] => True
  | ty :: ts => NoNarrow ty ∧ AllNoNarrow ts
/-- No field contains any. -/
def FieldsNoNarrow : List (String × Ty) → Prop
  | [] => True
  | (_, ty) :: fs => NoNarrow ty ∧ FieldsNoNarrow fs
/-- No variant contains any. -/
def VariantsNoNarrow : List (String × VTy) → Prop
  | [] => True
  | (_, vt) :: vs => PayloadNoNarrow vt ∧ VariantsNoNarrow vs
/-- The payload contains none. -/
def PayloadNoNarrow : VTy → Prop
  | .unit => True
  | .newtype ty => NoNarrow ty
  | .tuple ts => AllNoNarrow ts
  | .struct fs => FieldsNoNarrow fs
end

end Dlhn.Spec
