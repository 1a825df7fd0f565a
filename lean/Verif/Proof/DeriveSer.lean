import Verif.Proof.Derive
import Verif.Proof.BodySer
/-! # Serializing values of Rust types on every writer -/
namespace Dlhn
namespace Derive

open Spec hiding variantFields

theorem normalized_release (v : Num.Decimal) : v.normalized .release ≠ none := by
  unfold Num.Decimal.normalized
  split
  · simp
  · simp [Num.subI64]

/-- A predicate on encoders that holds of the encoders of plain values and is
closed under sequencing. -/
structure WClosed (P : WProg SerErr → Prop) : Prop where
  good : ∀ p, Ser.Good p → P p
  andThen : ∀ p q, P p → P q → P (p.andThen q)

section
variable {P : WProg SerErr → Prop} (hP : WClosed P)
include hP

theorem WClosed.emit (bs : List UInt8) : P (Ser.emit bs) := hP.good _ (Ser.good_emit bs)
theorem WClosed.skip : P .skip := hP.good _ trivial
theorem WClosed.str (s : String) : P (Ser.serStr s) := hP.good _ (Ser.good_serStr s)
theorem WClosed.hint (o : Option Nat) : P (Ser.serHint o) := hP.good _ (Ser.good_serHint o)
theorem WClosed.u8s (bs : List UInt8) : P (Ser.serU8s bs) := by
  induction bs with
  | nil => exact hP.skip
  | cons b bs ih => exact hP.andThen _ _ (hP.emit _) ih
theorem WClosed.vecU8 (bs : List UInt8) : P (Ser.serVecU8 bs) :=
  hP.andThen _ _ (hP.emit _) (hP.u8s bs)

theorem wclosed_date (mode : BuildMode) (d : Date)
    (hd : mode = .release ∨ P (.done (.panic .overflow))) : P (d.ser mode) := by
  rw [Date.ser]
  split
  · rcases hd with rfl | hd
    · rename_i h; simp [subI32] at h
    · exact hd
  · refine hP.andThen _ _ (hP.emit _) ?_
    split
    · rcases hd with rfl | hd
      · rename_i h; simp [subU16] at h
      · exact hd
    · exact hP.emit _

theorem wclosed_timeDate (mode : BuildMode) (d : Time.Date)
    (hd : mode = .release ∨ P (.done (.panic .overflow))) : P (Format.serDate mode d) := by
  rw [Format.serDate]
  split
  · rcases hd with rfl | hd
    · rename_i h; simp [subI32] at h
    · exact hd
  · refine hP.andThen _ _ (hP.emit _) ?_
    split
    · rcases hd with rfl | hd
      · rename_i h; simp [subU16] at h
      · exact hd
    · exact hP.emit _

theorem wclosed_numDecimal (mode : BuildMode) (v : Num.Decimal)
    (hd : mode = .release ∨ P (.done (.panic .overflow))) : P (Format.serBigDecimal mode v) := by
  refine hP.andThen _ _ (hP.hint _) ?_
  split
  · exact hP.emit _
  · split
    · rcases hd with rfl | hd
      · rename_i h; exact (normalized_release v h).elim
      · exact hd
    · exact hP.andThen _ _ (hP.vecU8 _) (hP.emit _)

theorem wclosed_seq {α : Type} {f : α → WProg SerErr} (h : ∀ v, P (f v)) (vs : List α) :
    P (serSeq f vs) := by
  induction vs with
  | nil => exact hP.skip
  | cons v vs ih => exact hP.andThen _ _ (h v) ih

theorem wclosed_map {α : Type} {f : α → WProg SerErr} (h : ∀ v, P (f v)) (es : List (String × α)) :
    P (serMap f es) := by
  induction es with
  | nil => exact hP.skip
  | cons e es ih => exact hP.andThen _ _ (hP.str _) (hP.andThen _ _ (h e.2) ih)

end

mutual
theorem wclosed_ser {P : WProg SerErr → Prop} (hP : WClosed P) (mode : BuildMode)
    (hd : mode = .release ∨ P (.done (.panic .overflow))) : (T : RTy) → (v : Carrier T) →
    P (ser mode T v)
  | .unit, _ => by rw [ser]; exact hP.skip
  | .option _, none => by rw [ser]; exact hP.emit _
  | .option T, some v => by
    rw [ser]; exact hP.andThen _ _ (hP.emit _) (wclosed_ser hP mode hd T v)
  | .bool, v => by rw [ser]; cases v <;> exact hP.emit _
  | .u8, v => by rw [ser]; exact hP.emit _
  | .u16, v => by rw [ser]; exact hP.emit _
  | .u32, v => by rw [ser]; exact hP.emit _
  | .u64, v => by rw [ser]; exact hP.emit _
  | .i8, v => by rw [ser]; exact hP.emit _
  | .i16, v => by rw [ser]; exact hP.emit _
  | .i32, v => by rw [ser]; exact hP.emit _
  | .i64, v => by rw [ser]; exact hP.emit _
  | .f32, v => by rw [ser]; exact hP.emit _
  | .f64, v => by rw [ser]; exact hP.emit _
  | .bigUint, v => by rw [ser]; exact hP.andThen _ _ (hP.hint _) (hP.vecU8 _)
  | .numBigUint, v => by
    rw [ser]
    refine hP.andThen _ _ (hP.hint _) ?_
    split
    · exact hP.emit _
    · exact hP.vecU8 _
  | .bigInt, v => by rw [ser]; exact hP.andThen _ _ (hP.hint _) (hP.vecU8 _)
  | .numBigInt, v => by
    rw [ser]
    refine hP.andThen _ _ (hP.hint _) ?_
    split
    · exact hP.emit _
    · exact hP.vecU8 _
  | .bigDecimal, v => by
    rw [ser]
    refine hP.andThen _ _ (hP.hint _) ?_
    split
    · exact hP.emit _
    · exact hP.andThen _ _ (hP.vecU8 _) (hP.emit _)
  | .numBigDecimal, v => by rw [ser]; exact wclosed_numDecimal hP mode v hd
  | .str, v => by rw [ser]; exact hP.str _
  | .string, v => by rw [ser]; exact hP.str _
  | .bytes, v => by rw [ser]; exact hP.andThen _ _ (hP.emit _) (hP.emit _)
  | .byteBuf, v => by rw [ser]; exact hP.andThen _ _ (hP.emit _) (hP.emit _)
  | .vec T, vs => by
    rw [ser]
    exact hP.andThen _ _ (hP.hint _) (wclosed_seq hP (fun v => wclosed_ser hP mode hd T v) vs)
  | .date, v => by rw [ser]; exact wclosed_date hP mode v hd
  | .timeDate, v => by rw [ser]; exact wclosed_timeDate hP mode v hd
  | .dateTime, v => by rw [ser]; exact hP.andThen _ _ (hP.emit _) (hP.emit _)
  | .offsetDateTime, v => by
    rw [ser]; exact hP.andThen _ _ (hP.hint _) (hP.andThen _ _ (hP.emit _) (hP.emit _))
  | .btreeMap T, es => by
    rw [ser]
    exact hP.andThen _ _ (hP.hint _) (wclosed_map hP (fun v => wclosed_ser hP mode hd T v) es)
  | .hashMap T, es => by
    rw [ser]
    exact hP.andThen _ _ (hP.hint _) (wclosed_map hP (fun v => wclosed_ser hP mode hd T v) es)
  | .tuple Ts, vs => by rw [ser]; exact wclosed_serTuple hP mode hd Ts vs
  | .struct _ (.named fs), vs => by rw [ser]; exact wclosed_serFields hP mode hd fs vs
  | .struct _ (.unnamed []), _ => by rw [ser]; exact hP.skip
  | .struct _ (.unnamed [.mk _ _ T]), vs => by rw [ser]; exact wclosed_ser hP mode hd T vs.1
  | .struct _ (.unnamed (f :: g :: fs)), vs => by
    rw [ser]; exact wclosed_serFields hP mode hd (f :: g :: fs) vs
  | .struct _ .unit, _ => by rw [ser]; exact hP.skip
  | .enum name vs, v => by rw [ser]; exact wclosed_serVariant hP mode hd name 0 vs v
  | .union _, v => nomatch v
  | .foreign, v => by rw [ser]; exact hP.good _ (Ser.good_ser v)
theorem wclosed_serTuple {P : WProg SerErr → Prop} (hP : WClosed P) (mode : BuildMode)
    (hd : mode = .release ∨ P (.done (.panic .overflow))) : (Ts : List RTy) →
    (vs : TupleCarrier Ts) → P (serTuple mode Ts vs)
  | [], _ => by rw [serTuple]; exact hP.skip
  | T :: Ts, (v, vs) => by
    rw [serTuple]
    exact hP.andThen _ _ (wclosed_ser hP mode hd T v) (wclosed_serTuple hP mode hd Ts vs)
theorem wclosed_serFields {P : WProg SerErr → Prop} (hP : WClosed P) (mode : BuildMode)
    (hd : mode = .release ∨ P (.done (.panic .overflow))) : (fs : List RField) →
    (vs : FieldCarrier fs) → P (serFields mode fs vs)
  | [], _ => by rw [serFields]; exact hP.skip
  | .mk attrs _ T :: fs, (v, vs) => by
    rw [serFields]
    split
    · exact wclosed_serFields hP mode hd fs vs
    · exact hP.andThen _ _ (wclosed_ser hP mode hd T v) (wclosed_serFields hP mode hd fs vs)
theorem wclosed_serVariant {P : WProg SerErr → Prop} (hP : WClosed P) (mode : BuildMode)
    (hd : mode = .release ∨ P (.done (.panic .overflow))) (name : String) : (i : Nat) →
    (vs : List RVariant) → (v : VariantsCarrier vs) → P (serVariant mode name i vs v)
  | i, .mk attrs vn (.named fs) :: _, .inl v => by
    rw [serVariant]
    split
    · exact hP.good _ trivial
    · exact hP.andThen _ _ (hP.emit _) (wclosed_serFields hP mode hd fs v)
  | i, .mk attrs vn (.unnamed fs) :: _, .inl v => by
    rw [serVariant]
    split
    · exact hP.good _ trivial
    · exact hP.andThen _ _ (hP.emit _) (wclosed_serFields hP mode hd fs v)
  | i, .mk attrs vn .unit :: _, .inl v => by
    rw [serVariant]
    split
    · exact hP.good _ trivial
    · exact hP.andThen _ _ (hP.emit _) hP.skip
  | i, .mk _ _ _ :: vs, .inr v => by
    rw [serVariant]
    exact wclosed_serVariant hP mode hd name (i + 1) vs v
end

theorem wclosed_maps : WClosed (WProg.Maps fun _ => SerErr.write) where
  good _ h := h.maps
  andThen _ _ hp hq := hp.andThen hq

theorem wclosed_good : WClosed Ser.Good where
  good _ h := h
  andThen _ _ hp hq := hp.andThen hq

/-- Every panic of the encoder is an arithmetic overflow. -/
def OverflowOnly : WProg SerErr → Prop
  | .done (.panic q) => q = .overflow
  | .done _ => True
  | .writeAll _ f k => (∀ x, f x = .write) ∧ OverflowOnly k

theorem OverflowOnly.andThen {p q : WProg SerErr} (hp : OverflowOnly p) (hq : OverflowOnly q) :
    OverflowOnly (p.andThen q) := by
  induction p with
  | done o => cases o <;> first | exact hq | exact hp
  | writeAll bs f k ih => exact ⟨hp.1, ih hp.2⟩

theorem wclosed_overflowOnly : WClosed OverflowOnly where
  good p h := by
    induction p with
    | done o => cases o <;> first | trivial | exact h.elim
    | writeAll bs f k ih => exact ⟨h.1, ih h.2⟩
  andThen _ _ hp hq := hp.andThen hq

theorem OverflowOnly.runScript {p : WProg SerErr} (hp : OverflowOnly p) (s : WScript)
    (q : PanicKind) (hx : (p.runScript s).2 = .panic q) : q = .overflow := by
  induction p generalizing s with
  | done o =>
    simp only [WProg.runScript] at hx
    subst hx
    exact hp
  | writeAll bs f k ih =>
    simp only [WProg.runScript] at hx
    split at hx
    · simp at hx
    · exact ih hp.2 _ hx

end Derive
end Dlhn
