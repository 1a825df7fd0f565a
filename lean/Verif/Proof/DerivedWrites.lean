import Verif.Spec.DerivedWrites
import Verif.Proof.Writers
import Verif.Proof.Derive
/-!
# Counting calls of `write` of derived implementations
-/
namespace Dlhn

open Spec hiding variantFields
open Derive

theorem calls_done {n : Nat} (o : Outcome SerErr Unit) : AtMostCalls (.done o : WProg SerErr) n := by
  rw [AtMostCalls]; exact Nat.zero_le _

theorem calls_serSeq {α : Type} {n : Nat} {f : α → WProg SerErr} (vs : List α)
    (h : ∀ v, AtMostCalls (f v) 0) : AtMostCalls (Derive.serSeq f vs) n := by
  suffices h : AtMostCalls (Derive.serSeq f vs) 0 from h.mono (Nat.zero_le _)
  induction vs with
  | nil => rw [Derive.serSeq]; exact calls_skip _
  | cons v vs ih => rw [Derive.serSeq]; exact (h v).andThen ih

mutual
theorem calls_derived (mode : BuildMode) : (T : RTy) → (n : Nat) → maxWritesDerived T = some n →
    (v : Carrier T) → AtMostCalls (Derive.ser mode T v) n
  | .unit, n, hn, v => by rw [Derive.ser]; exact calls_skip _
  | .bool, n, hn, v => by
    cases hn; rw [Derive.ser, Ser.serBool]; split <;> exact calls_emit _
  | .u8, n, hn, v | .u16, n, hn, v | .u32, n, hn, v | .u64, n, hn, v
  | .i8, n, hn, v | .i16, n, hn, v | .i32, n, hn, v | .i64, n, hn, v
  | .f32, n, hn, v | .f64, n, hn, v => by
    cases hn; rw [Derive.ser]; exact calls_emit _
  | .str, n, hn, v | .string, n, hn, v | .bytes, n, hn, v | .byteBuf, n, hn, v => by
    cases hn; rw [Derive.ser]; exact (calls_emit _).andThen (calls_emit _)
  | .date, n, hn, v => by
    cases hn; rw [Derive.ser, Date.ser]
    split
    · exact calls_done _
    · refine AtMostCalls.andThen (a := 1) (b := 1) (calls_emit _) ?_
      split
      · exact calls_done _
      · exact calls_emit _
  | .timeDate, n, hn, v => by
    cases hn; rw [Derive.ser, Format.serDate]
    split
    · exact calls_done _
    · refine AtMostCalls.andThen (a := 1) (b := 1) (calls_emit _) ?_
      split
      · exact calls_done _
      · exact calls_emit _
  | .dateTime, n, hn, v => by
    cases hn; rw [Derive.ser, DateTime.ser]; exact (calls_emit _).andThen (calls_emit _)
  | .offsetDateTime, n, hn, v => by
    cases hn; rw [Derive.ser, Format.serDateTime]
    exact AtMostCalls.andThen (a := 0) (b := 2) (calls_skip _)
      ((calls_emit _).andThen (calls_emit _))
  | .option T, n, hn, v => by
    rw [maxWritesDerived] at hn
    obtain ⟨x, y, hx, hy, rfl⟩ := addBound_split hn
    cases hx
    cases v with
    | none => rw [Derive.ser]; exact (calls_emit _).mono (by omega)
    | some v => rw [Derive.ser]; exact (calls_emit _).andThen (calls_derived mode T y hy v)
  | .vec T, n, hn, vs => by
    rw [maxWritesDerived] at hn
    split at hn
    · rename_i h0
      cases hn
      rw [Derive.ser]
      exact AtMostCalls.andThen (a := 1) (b := 0) (calls_emit _)
        (calls_serSeq vs fun w => calls_derived mode T 0 h0 w)
    · cases hn
  | .tuple Ts, n, hn, vs => by
    rw [maxWritesDerived] at hn
    rw [Derive.ser]; exact calls_members mode Ts n hn vs
  | .struct _ (.named fs), n, hn, vs => by
    rw [maxWritesDerived] at hn
    rw [Derive.ser]; exact calls_declared mode fs n hn vs
  | .struct _ (.unnamed []), n, hn, vs => by rw [Derive.ser]; exact calls_skip _
  | .struct _ (.unnamed [.mk _ _ T]), n, hn, vs => by
    rw [maxWritesDerived] at hn
    rw [Derive.ser]; exact calls_derived mode T n hn vs.1
  | .struct _ (.unnamed (f :: g :: fs)), n, hn, vs => by
    rw [maxWritesDerived] at hn
    · rw [Derive.ser]; exact calls_declared mode (f :: g :: fs) n hn vs
    · intro _ _ _ h; cases h
  | .struct _ .unit, n, hn, vs => by rw [Derive.ser]; exact calls_skip _
  | .enum name vs, n, hn, v => by
    rw [maxWritesDerived] at hn
    obtain ⟨x, y, hx, hy, rfl⟩ := addBound_split hn
    cases hx
    rw [Derive.ser]; exact calls_declaredVariants mode name 0 vs y hy v
  | .bigUint, n, hn, v | .numBigUint, n, hn, v | .bigInt, n, hn, v | .numBigInt, n, hn, v
  | .bigDecimal, n, hn, v | .numBigDecimal, n, hn, v | .btreeMap _, n, hn, v
  | .hashMap _, n, hn, v | .foreign, n, hn, v | .union _, n, hn, v => by cases hn
theorem calls_members (mode : BuildMode) : (Ts : List RTy) → (n : Nat) →
    maxWritesMembers Ts = some n → (vs : TupleCarrier Ts) →
    AtMostCalls (Derive.serTuple mode Ts vs) n
  | [], n, hn, vs => by rw [Derive.serTuple]; exact calls_skip _
  | T :: Ts, n, hn, (v, vs) => by
    rw [maxWritesMembers] at hn
    obtain ⟨x, y, hx, hy, rfl⟩ := addBound_split hn
    rw [Derive.serTuple]
    exact (calls_derived mode T x hx v).andThen (calls_members mode Ts y hy vs)
theorem calls_declared (mode : BuildMode) : (fs : List RField) → (n : Nat) →
    maxWritesDeclared fs = some n → (vs : FieldCarrier fs) →
    AtMostCalls (Derive.serFields mode fs vs) n
  | [], n, hn, vs => by rw [Derive.serFields]; exact calls_skip _
  | .mk attrs _ T :: fs, n, hn, (v, vs) => by
    rw [maxWritesDeclared] at hn
    rw [Derive.serFields]
    by_cases hs : Skipped attrs
    · rw [if_pos hs] at hn
      rw [if_pos ((serdeSkips_iff attrs).mpr hs)]
      exact calls_declared mode fs n hn vs
    · rw [if_neg hs] at hn
      rw [if_neg (fun h => hs ((serdeSkips_iff attrs).mp h))]
      obtain ⟨x, y, hx, hy, rfl⟩ := addBound_split hn
      exact (calls_derived mode T x hx v).andThen (calls_declared mode fs y hy vs)
theorem calls_declaredVariants (mode : BuildMode) (name : String) : (k : Nat) →
    (vs : List RVariant) → (n : Nat) → maxWritesDeclaredVariants vs = some n →
    (v : VariantsCarrier vs) → AtMostCalls (Derive.serVariant mode name k vs v) (1 + n)
  | k, [], n, hn, v => nomatch v
  | k, .mk attrs vn (.named fs) :: vs, n, hn, .inl v => by
    rw [maxWritesDeclaredVariants] at hn
    rw [Derive.serVariant]
    by_cases hs : Skipped attrs
    · rw [if_pos ((serdeSkips_iff attrs).mpr hs)]; exact calls_done _
    · rw [if_neg hs] at hn
      rw [if_neg (fun h => hs ((serdeSkips_iff attrs).mp h))]
      obtain ⟨x, y, hx, hy, h1, h2⟩ := maxBound_split hn
      exact (AtMostCalls.andThen (a := 1) (b := x) (calls_emit _)
        (calls_declared mode fs x hx v)).mono (by omega)
  | k, .mk attrs vn (.unnamed fs) :: vs, n, hn, .inl v => by
    rw [maxWritesDeclaredVariants] at hn
    rw [Derive.serVariant]
    by_cases hs : Skipped attrs
    · rw [if_pos ((serdeSkips_iff attrs).mpr hs)]; exact calls_done _
    · rw [if_neg hs] at hn
      rw [if_neg (fun h => hs ((serdeSkips_iff attrs).mp h))]
      obtain ⟨x, y, hx, hy, h1, h2⟩ := maxBound_split hn
      exact (AtMostCalls.andThen (a := 1) (b := x) (calls_emit _)
        (calls_declared mode fs x hx v)).mono (by omega)
  | k, .mk attrs vn .unit :: vs, n, hn, .inl v => by
    rw [Derive.serVariant]
    split
    · exact calls_done _
    · exact (AtMostCalls.andThen (a := 1) (b := 0) (calls_emit _) (calls_skip _)).mono (by omega)
  | k, .mk attrs vn (.named fs) :: vs, n, hn, .inr v => by
    rw [maxWritesDeclaredVariants] at hn
    rw [Derive.serVariant]
    split at hn
    · exact calls_declaredVariants mode name (k + 1) vs n hn v
    · obtain ⟨x, y, hx, hy, h1, h2⟩ := maxBound_split hn
      exact (calls_declaredVariants mode name (k + 1) vs y hy v).mono (by omega)
  | k, .mk attrs vn (.unnamed fs) :: vs, n, hn, .inr v => by
    rw [maxWritesDeclaredVariants] at hn
    rw [Derive.serVariant]
    split at hn
    · exact calls_declaredVariants mode name (k + 1) vs n hn v
    · obtain ⟨x, y, hx, hy, h1, h2⟩ := maxBound_split hn
      exact (calls_declaredVariants mode name (k + 1) vs y hy v).mono (by omega)
  | k, .mk attrs vn .unit :: vs, n, hn, .inr v => by
    rw [maxWritesDeclaredVariants] at hn
    rw [Derive.serVariant]
    exact calls_declaredVariants mode name (k + 1) vs n hn v
end

theorem calls_bodies (mode : BuildMode) {n : Nat} (bs : List Body)
    (h : ∀ b ∈ bs, AtMostCalls (Body.ser mode b) 0) : AtMostCalls (Body.serAll mode bs) n := by
  suffices h : AtMostCalls (Body.serAll mode bs) 0 from h.mono (Nat.zero_le _)
  induction bs with
  | nil => rw [Body.serAll]; exact calls_skip _
  | cons b bs ih =>
    rw [Body.serAll]
    exact (h b List.mem_cons_self).andThen (ih fun u hu => h u (List.mem_cons_of_mem _ hu))

mutual
theorem calls_body (mode : BuildMode) : (h : Header) → (n : Nat) → maxWritesHeader h = some n →
    (b : Body) → Body.validate h b = true → AtMostCalls (Body.ser mode b) n
  | .unit, n, hn, b, hb => by
    cases b <;> simp [Body.validate] at hb
    rw [Body.ser]; exact calls_skip _
  | .boolean, n, hn, b, hb => by
    cases b <;> simp [Body.validate] at hb
    cases hn; rw [Body.ser, Ser.serBool]; split <;> exact calls_emit _
  | .uint8, n, hn, b, hb | .uint16, n, hn, b, hb | .uint32, n, hn, b, hb | .uint64, n, hn, b, hb
  | .int8, n, hn, b, hb | .int16, n, hn, b, hb | .int32, n, hn, b, hb | .int64, n, hn, b, hb
  | .float32, n, hn, b, hb | .float64, n, hn, b, hb => by
    cases b <;> simp [Body.validate] at hb
    cases hn; rw [Body.ser]; exact calls_emit _
  | .string, n, hn, b, hb | .binary, n, hn, b, hb => by
    cases b <;> simp [Body.validate] at hb
    cases hn; rw [Body.ser]; exact (calls_emit _).andThen (calls_emit _)
  | .date, n, hn, b, hb => by
    cases b <;> simp [Body.validate] at hb
    cases hn; rw [Body.ser, Date.ser]
    split
    · exact calls_done _
    · refine AtMostCalls.andThen (a := 1) (b := 1) (calls_emit _) ?_
      split
      · exact calls_done _
      · exact calls_emit _
  | .dateTime, n, hn, b, hb => by
    cases b <;> simp [Body.validate] at hb
    cases hn; rw [Body.ser, DateTime.ser]; exact (calls_emit _).andThen (calls_emit _)
  | .optional h, n, hn, b, hb => by
    rw [maxWritesHeader] at hn
    obtain ⟨x, y, hx, hy, rfl⟩ := addBound_split hn
    cases hx
    cases b <;> simp [Body.validate] at hb
    · rw [Body.ser]; exact (calls_emit _).mono (by omega)
    · rw [Body.ser]; exact (calls_emit _).andThen (calls_body mode h y hy _ hb)
  | .array h, n, hn, b, hb => by
    rw [maxWritesHeader] at hn
    split at hn
    · rename_i h0
      cases hn
      cases b <;> simp [Body.validate] at hb
      rw [Body.ser]
      exact AtMostCalls.andThen (a := 1) (b := 0) (calls_emit _)
        (calls_bodies mode _ fun u hu => calls_body mode h 0 h0 u (hb u hu))
    · cases hn
  | .tuple hs, n, hn, b, hb => by
    rw [maxWritesHeader] at hn
    cases b <;> simp [Body.validate] at hb
    rw [Body.ser]; exact calls_zip mode hs n hn _ hb.1 hb.2
  | .enum hs, n, hn, b, hb => by
    rw [maxWritesHeader] at hn
    obtain ⟨x, y, hx, hy, rfl⟩ := addBound_split hn
    cases hx
    cases b <;> simp [Body.validate] at hb
    rw [Body.ser]; exact (calls_emit _).andThen (calls_nth mode hs y hy _ _ hb)
  | .bigUInt, n, hn, b, hb | .bigInt, n, hn, b, hb | .bigDecimal, n, hn, b, hb
  | .map _, n, hn, b, hb => by cases hn
theorem calls_zip (mode : BuildMode) : (hs : List Header) → (n : Nat) →
    maxWritesHeaders hs = some n → (bs : List Body) → hs.length = bs.length →
    Body.validateZip hs bs = true → AtMostCalls (Body.serAll mode bs) n
  | [], n, hn, [], _, hb => by rw [Body.serAll]; exact calls_skip _
  | [], n, hn, _ :: _, hl, hb => by simp at hl
  | _ :: _, n, hn, [], hl, hb => by simp at hl
  | h :: hs, n, hn, b :: bs, hl, hb => by
    rw [maxWritesHeaders] at hn
    obtain ⟨x, y, hx, hy, rfl⟩ := addBound_split hn
    rw [Body.validateZip, Bool.and_eq_true] at hb
    rw [Body.serAll]
    exact (calls_body mode h x hx b hb.1).andThen
      (calls_zip mode hs y hy bs (by simpa using hl) hb.2)
theorem calls_nth (mode : BuildMode) : (hs : List Header) → (n : Nat) →
    maxWritesEither hs = some n → (i : Nat) → (b : Body) → Body.validateNth hs i b = true →
    AtMostCalls (Body.ser mode b) n
  | [], n, hn, i, b, hb => by simp [Body.validateNth] at hb
  | h :: hs, n, hn, 0, b, hb => by
    rw [maxWritesEither] at hn
    obtain ⟨x, y, hx, hy, h1, h2⟩ := maxBound_split hn
    rw [Body.validateNth] at hb
    exact (calls_body mode h x hx b hb).mono h1
  | h :: hs, n, hn, i + 1, b, hb => by
    rw [maxWritesEither] at hn
    obtain ⟨x, y, hx, hy, h1, h2⟩ := maxBound_split hn
    rw [Body.validateNth] at hb
    exact (calls_nth mode hs y hy i b hb).mono h2
end

end Dlhn
