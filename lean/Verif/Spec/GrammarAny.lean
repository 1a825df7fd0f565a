import Verif.Spec.Grammar
import Verif.Spec.NoText
/-!
# Specification: which bytes are read as which value on a target with addresses of some bits

As Spec/Grammar.lean, but an announced length counts modulo the size of the address space.
What text stands for then depends on what follows it.
-/
namespace Dlhn.Spec

/-- `l` announces `n` elements. -/
def CountIn (bits n : Nat) (l : List UInt8) : Prop := ∃ m, Number 64 m l ∧ n = m % 2 ^ bits

/-- A length that does not fit is that of everything up to the end of the input. -/
def TextIn (bits : Nat) (body bs rest : List UInt8) : Prop :=
  ∃ m l, Number 64 m l ∧ bs = l ++ body ∧ body.length = m % 2 ^ bits ∧ (2 ^ bits ≤ m → rest = [])

/-- A length that does not fit is rounded up to whole blocks of 4096 bytes. -/
def BytesIn (bits : Nat) (body bs : List UInt8) : Prop :=
  ∃ m l, Number 64 m l ∧ bs = l ++ body ∧ body.length = bufferBytes bits m

/-- One part after the other, the last followed by `rest`. -/
def JoinedIn {α : Type} (R : α → List UInt8 → List UInt8 → Prop) :
    List α → List UInt8 → List UInt8 → Prop
  | [], bs, _ => bs = []
  | a :: as, bs, rest => ∃ u w, bs = u ++ w ∧ R a u (w ++ rest) ∧ JoinedIn R as w rest

mutual
/-- `DenotesIn bits ty v bs rest`: followed by `rest` and then the end of the input, the byte
string `bs` stands for the value `v` of type `ty`. -/
def DenotesIn (bits : Nat) : Ty → Val → List UInt8 → List UInt8 → Prop
  | .char, v, bs, rest => ∃ c cs, v = .char c ∧ TextIn bits (utf8 (String.ofList (c :: cs))) bs rest
  | .string, v, bs, rest => ∃ s, v = .str s ∧ TextIn bits (utf8 s) bs rest
  | .byteBuf, v, bs, _ => ∃ body, v = .bytes body ∧ BytesIn bits body bs
  | .option ty, v, bs, rest => (v = .none ∧ bs = [0]) ∨
      ∃ w u, v = .some w ∧ bs = 1 :: u ∧ DenotesIn bits ty w u rest
  | .newtypeStruct name ty, v, bs, rest => ∃ w, v = .newtypeStruct name w ∧ DenotesIn bits ty w bs rest
  | .seq ty, v, bs, rest => ∃ vs l u, v = .seq (some vs.length) vs ∧ bs = l ++ u ∧
      CountIn bits vs.length l ∧ JoinedIn (DenotesIn bits ty) vs u rest
  | .tuple ts, v, bs, rest => ∃ vs, v = .tuple vs ∧ DenotesAllIn bits ts vs bs rest
  | .tupleStruct name ts, v, bs, rest => ∃ vs, v = .tupleStruct name vs ∧
      DenotesAllIn bits ts vs bs rest
  | .map kt vt, v, bs, rest => ∃ es l u, v = .map (some es.length) es ∧ bs = l ++ u ∧
      CountIn bits es.length l ∧
      JoinedIn (fun e x r => ∃ a b, x = a ++ b ∧ DenotesIn bits kt e.1 a (b ++ r) ∧
        DenotesIn bits vt e.2 b r) es u rest
  | .struct name fs, v, bs, rest => ∃ vs, v = .struct name vs ∧ DenotesFieldsIn bits fs vs bs rest
  | .enum name vs, v, bs, rest => ∃ i l u, bs = l ++ u ∧ Number 16 i l ∧
      DenotesVariantIn bits name i i vs v u rest
  -- no lengths
  | ty, v, bs, _ => Denotes ty v bs
/-- Member by member. -/
def DenotesAllIn (bits : Nat) : List Ty → List Val → List UInt8 → List UInt8 → Prop
  | [], vs, bs, _ => vs = [] ∧ bs = []
  | ty :: ts, vs, bs, rest => ∃ w ws u x, vs = w :: ws ∧ bs = u ++ x ∧
      DenotesIn bits ty w u (x ++ rest) ∧ DenotesAllIn bits ts ws x rest
/-- Field by field. -/
def DenotesFieldsIn (bits : Nat) :
    List (String × Ty) → List (String × Val) → List UInt8 → List UInt8 → Prop
  | [], fs, bs, _ => fs = [] ∧ bs = []
  | (n, ty) :: ts, fs, bs, rest => ∃ w ws u x, fs = (n, w) :: ws ∧ bs = u ++ x ∧
      DenotesIn bits ty w u (x ++ rest) ∧ DenotesFieldsIn bits ts ws x rest
/-- The payload of the variant at position `k` of the list, whose index is `i`. -/
def DenotesVariantIn (bits : Nat) (name : String) (i : Nat) :
    Nat → List (String × VTy) → Val → List UInt8 → List UInt8 → Prop
  | _, [], _, _, _ => False
  | k + 1, _ :: vs, v, bs, rest => DenotesVariantIn bits name i k vs v bs rest
  | 0, (vn, vt) :: _, v, bs, rest => DenotesPayloadIn bits name (UInt32.ofNat i) vn vt v bs rest
/-- The payload of a variant. -/
def DenotesPayloadIn (bits : Nat) (name : String) (i : UInt32) (vn : String) :
    VTy → Val → List UInt8 → List UInt8 → Prop
  | .unit, v, bs, _ => v = .unitVariant name i vn ∧ bs = []
  | .newtype ty, v, bs, rest => ∃ w, v = .newtypeVariant name i vn w ∧ DenotesIn bits ty w bs rest
  | .tuple ts, v, bs, rest => ∃ vs, v = .tupleVariant name i vn vs ∧ DenotesAllIn bits ts vs bs rest
  | .struct fs, v, bs, rest => ∃ vs, v = .structVariant name i vn vs ∧
      DenotesFieldsIn bits fs vs bs rest
end

end Dlhn.Spec
