import Verif.Proof.DerivedWrites
import Verif.Proof.WritersMax
/-!
# Values of derived types that take as many calls of `write` as their type allows
-/
namespace Dlhn

open Spec hiding variantFields
open Derive

theorem makes_date (mode : BuildMode) : MakesCalls (Date.ser mode ⟨2000, 1⟩) 2 := by
  have h2 : MakesCalls ((Ser.serI32 0).andThen (Ser.serU16 0)) (1 + 1) :=
    (makes_emit (by decide +kernel)).andThen (makes_emit (by decide +kernel))
  cases mode <;> exact h2

/-- Without variants that can be written the limit is zero. -/
theorem declaredVariants_zero : (vs : List RVariant) → (∀ v ∈ vs, Skipped (variantAttrs v)) →
    maxWritesDeclaredVariants vs = some 0
  | [], _ => rfl
  | .mk attrs vn (.named fs) :: vs, h => by
    rw [maxWritesDeclaredVariants, if_pos (show Skipped attrs from h _ List.mem_cons_self)]
    exact declaredVariants_zero vs fun v hv => h v (List.mem_cons_of_mem _ hv)
  | .mk attrs vn (.unnamed fs) :: vs, h => by
    rw [maxWritesDeclaredVariants, if_pos (show Skipped attrs from h _ List.mem_cons_self)]
    exact declaredVariants_zero vs fun v hv => h v (List.mem_cons_of_mem _ hv)
  | .mk attrs vn .unit :: vs, h => by
    rw [maxWritesDeclaredVariants]
    exact declaredVariants_zero vs fun v hv => h v (List.mem_cons_of_mem _ hv)

theorem maxBound_cases {a b : Option Nat} {n : Nat} (h : maxBound a b = some n) :
    a = some n ∨ b = some n := by
  cases a <;> cases b <;> simp [maxBound] at h
  simp only [Option.some.injEq]
  omega

theorem unskipped_or (v : RVariant) (vs : List RVariant)
    (h : ∃ u ∈ v :: vs, ¬ Skipped (variantAttrs u)) :
    (∃ u ∈ vs, ¬ Skipped (variantAttrs u)) ∨
      (¬ Skipped (variantAttrs v) ∧ ∀ u ∈ vs, Skipped (variantAttrs u)) := by
  by_cases hx : ∃ u ∈ vs, ¬ Skipped (variantAttrs u)
  · exact .inl hx
  · have hall : ∀ u ∈ vs, Skipped (variantAttrs u) := fun u hu =>
      Classical.byContradiction fun hn => hx ⟨u, hu, hn⟩
    obtain ⟨u, hu, hn⟩ := h
    rcases List.mem_cons.mp hu with rfl | hu
    · exact .inr ⟨hn, hall⟩
    · exact absurd (hall u hu) hn

mutual
theorem reached_ty (mode : BuildMode) : (T : RTy) → Writable T → (n : Nat) →
    maxWritesDerived T = some n → ∃ v : Carrier T, MakesCalls (Derive.ser mode T v) n
  | .unit, _, n, hn => by cases hn; exact ⟨(), makes_skip⟩
  | .bool, _, n, hn => by cases hn; exact ⟨true, makes_emit (by decide)⟩
  | .u8, _, n, hn => by cases hn; exact ⟨(0 : UInt8), makes_emit (by decide)⟩
  | .u16, _, n, hn => by cases hn; exact ⟨(0 : UInt16), makes_emit (by decide +kernel)⟩
  | .u32, _, n, hn => by cases hn; exact ⟨(0 : UInt32), makes_emit (by decide +kernel)⟩
  | .u64, _, n, hn => by cases hn; exact ⟨(0 : UInt64), makes_emit (by decide +kernel)⟩
  | .i8, _, n, hn => by cases hn; exact ⟨(0 : Int8), makes_emit (by decide)⟩
  | .i16, _, n, hn => by cases hn; exact ⟨(0 : Int16), makes_emit (by decide +kernel)⟩
  | .i32, _, n, hn => by cases hn; exact ⟨(0 : Int32), makes_emit (by decide +kernel)⟩
  | .i64, _, n, hn => by cases hn; exact ⟨(0 : Int64), makes_emit (by decide +kernel)⟩
  | .f32, _, n, hn => by cases hn; exact ⟨(0 : UInt32), makes_emit (by decide)⟩
  | .f64, _, n, hn => by cases hn; exact ⟨(0 : UInt64), makes_emit (by decide)⟩
  | .str, _, n, hn => by
    cases hn; exact ⟨"a", (makes_serLen _).andThen (makes_emit (by decide))⟩
  | .string, _, n, hn => by
    cases hn; exact ⟨"a", (makes_serLen _).andThen (makes_emit (by decide))⟩
  | .bytes, _, n, hn => by
    cases hn; exact ⟨[(0 : UInt8)], (makes_serLen _).andThen (makes_emit (by decide))⟩
  | .byteBuf, _, n, hn => by
    cases hn; exact ⟨[(0 : UInt8)], (makes_serLen _).andThen (makes_emit (by decide))⟩
  | .date, _, n, hn => by cases hn; exact ⟨⟨2000, 1⟩, makes_date mode⟩
  | .timeDate, _, n, hn => by cases hn; exact ⟨⟨2000, 1⟩, makes_date mode⟩
  | .dateTime, _, n, hn => by
    cases hn
    exact ⟨⟨0, 0⟩, (makes_emit (by decide +kernel)).andThen (makes_emit (by decide +kernel))⟩
  | .offsetDateTime, _, n, hn => by
    cases hn
    have h2 : MakesCalls ((Ser.serI64 0).andThen (Ser.serU32 0)) (1 + 1) :=
      (makes_emit (by decide +kernel)).andThen (makes_emit (by decide +kernel))
    have h3 := makes_skip.andThen h2
    exact ⟨⟨0, 0, 0⟩, h3⟩
  | .option T, hw, n, hn => by
    rw [Writable] at hw; rw [maxWritesDerived] at hn
    obtain ⟨x, y, hx, hy, rfl⟩ := addBound_split hn
    cases hx
    obtain ⟨v, hv⟩ := reached_ty mode T hw y hy
    exact ⟨some v, by rw [Derive.ser]; exact (makes_emit (by decide)).andThen hv⟩
  | .vec T, _, n, hn => by
    rw [maxWritesDerived] at hn
    split at hn
    · cases hn
      exact ⟨[], by rw [Derive.ser, Derive.serSeq]; exact (makes_serLen _).andThen makes_skip⟩
    · cases hn
  | .tuple Ts, hw, n, hn => by
    rw [Writable] at hw; rw [maxWritesDerived] at hn
    obtain ⟨v, hv⟩ := reached_members mode Ts hw n hn
    exact ⟨v, by rw [Derive.ser]; exact hv⟩
  | .struct _ (.named fs), hw, n, hn => by
    rw [Writable] at hw; rw [maxWritesDerived] at hn
    obtain ⟨v, hv⟩ := reached_declared mode fs hw n hn
    exact ⟨v, by rw [Derive.ser]; exact hv⟩
  | .struct _ (.unnamed []), _, n, hn => by
    rw [maxWritesDerived, maxWritesDeclared] at hn
    · cases hn; exact ⟨(), by rw [Derive.ser]; exact makes_skip⟩
    · intro _ _ _ h; cases h
  | .struct _ (.unnamed [.mk _ _ T]), hw, n, hn => by
    rw [Writable] at hw; rw [maxWritesDerived] at hn
    obtain ⟨v, hv⟩ := reached_ty mode T hw n hn
    exact ⟨(v, ()), by rw [Derive.ser]; exact hv⟩
  | .struct _ (.unnamed (f :: g :: fs)), hw, n, hn => by
    rw [maxWritesDerived] at hn
    · rw [Writable] at hw
      · obtain ⟨v, hv⟩ := reached_declared mode (f :: g :: fs) hw n hn
        exact ⟨v, by rw [Derive.ser]; exact hv⟩
      · intro _ _ _ h; cases h
    · intro _ _ _ h; cases h
  | .struct _ .unit, _, n, hn => by
    rw [maxWritesDerived] at hn
    cases hn; exact ⟨(), by rw [Derive.ser]; exact makes_skip⟩
  | .enum name vs, hw, n, hn => by
    rw [Writable] at hw; rw [maxWritesDerived] at hn
    obtain ⟨x, y, hx, hy, rfl⟩ := addBound_split hn
    cases hx
    obtain ⟨v, hv⟩ := reached_variants mode name 0 vs hw.1 hw.2 y hy
    exact ⟨v, by rw [Derive.ser]; exact hv⟩
  | .bigUint, _, n, hn | .numBigUint, _, n, hn | .bigInt, _, n, hn | .numBigInt, _, n, hn
  | .bigDecimal, _, n, hn | .numBigDecimal, _, n, hn | .btreeMap _, _, n, hn
  | .hashMap _, _, n, hn | .foreign, _, n, hn | .union _, _, n, hn => by cases hn
theorem reached_members (mode : BuildMode) : (Ts : List RTy) → AllWritable Ts → (n : Nat) →
    maxWritesMembers Ts = some n →
    ∃ vs : TupleCarrier Ts, MakesCalls (Derive.serTuple mode Ts vs) n
  | [], _, n, hn => by
    rw [maxWritesMembers] at hn; cases hn
    exact ⟨(), by rw [Derive.serTuple]; exact makes_skip⟩
  | T :: Ts, hw, n, hn => by
    rw [AllWritable] at hw; rw [maxWritesMembers] at hn
    obtain ⟨x, y, hx, hy, rfl⟩ := addBound_split hn
    obtain ⟨v, hv⟩ := reached_ty mode T hw.1 x hx
    obtain ⟨vs, hvs⟩ := reached_members mode Ts hw.2 y hy
    exact ⟨(v, vs), by rw [Derive.serTuple]; exact hv.andThen hvs⟩
theorem reached_declared (mode : BuildMode) : (fs : List RField) → FieldsWritable fs → (n : Nat) →
    maxWritesDeclared fs = some n →
    ∃ vs : FieldCarrier fs, MakesCalls (Derive.serFields mode fs vs) n
  | [], _, n, hn => by
    rw [maxWritesDeclared] at hn; cases hn
    exact ⟨(), by rw [Derive.serFields]; exact makes_skip⟩
  | .mk attrs _ T :: fs, hw, n, hn => by
    rw [FieldsWritable] at hw; rw [maxWritesDeclared] at hn
    by_cases hs : Skipped attrs
    · rw [if_pos hs] at hn
      rw [if_pos hs] at hw
      obtain ⟨⟨v⟩, hw⟩ := hw
      obtain ⟨vs, hvs⟩ := reached_declared mode fs hw n hn
      exact ⟨(v, vs), by
        rw [Derive.serFields, if_pos ((serdeSkips_iff attrs).mpr hs)]; exact hvs⟩
    · rw [if_neg hs] at hn
      rw [if_neg hs] at hw
      obtain ⟨x, y, hx, hy, rfl⟩ := addBound_split hn
      obtain ⟨v, hv⟩ := reached_ty mode T hw.1 x hx
      obtain ⟨vs, hvs⟩ := reached_declared mode fs hw.2 y hy
      exact ⟨(v, vs), by
        rw [Derive.serFields, if_neg (fun h => hs ((serdeSkips_iff attrs).mp h))]
        exact hv.andThen hvs⟩
theorem reached_variants (mode : BuildMode) (name : String) : (k : Nat) → (vs : List RVariant) →
    (∃ v ∈ vs, ¬ Skipped (variantAttrs v)) → VariantsWritable vs → (n : Nat) →
    maxWritesDeclaredVariants vs = some n →
    ∃ v : VariantsCarrier vs, MakesCalls (Derive.serVariant mode name k vs v) (1 + n)
  | k, [], hu, _, n, hn => by obtain ⟨v, hv, -⟩ := hu; cases hv
  | k, .mk attrs vn (.named fs) :: vs, hu, hw, n, hn => by
    rw [VariantsWritable] at hw; rw [maxWritesDeclaredVariants] at hn
    have next : (∃ u ∈ vs, ¬ Skipped (variantAttrs u)) → maxWritesDeclaredVariants vs = some n →
        ∃ v, MakesCalls (Derive.serVariant mode name k (.mk attrs vn (.named fs) :: vs) v) (1 + n) := by
      intro h1 h2
      obtain ⟨v, hv⟩ := reached_variants mode name (k + 1) vs h1 hw.2 n h2
      exact ⟨.inr v, by rw [Derive.serVariant]; exact hv⟩
    have this : ¬ Skipped attrs → maxWritesDeclared fs = some n →
        ∃ v, MakesCalls (Derive.serVariant mode name k (.mk attrs vn (.named fs) :: vs) v) (1 + n) := by
      intro h1 h2
      obtain ⟨v, hv⟩ := reached_declared mode fs (hw.1 h1) n h2
      exact ⟨.inl v, by
        rw [Derive.serVariant, if_neg (fun h => h1 ((serdeSkips_iff attrs).mp h))]
        exact (makes_serU32 _).andThen hv⟩
    by_cases hs : Skipped attrs
    · rw [if_pos hs] at hn
      rcases unskipped_or _ _ hu with h | h
      · exact next h hn
      · exact absurd hs h.1
    · rw [if_neg hs] at hn
      rcases unskipped_or _ _ hu with h | h
      · rcases maxBound_cases hn with h' | h'
        · exact this hs h'
        · exact next h h'
      · rw [declaredVariants_zero vs h.2] at hn
        obtain ⟨x, y, hx, hy, h1, h2⟩ := maxBound_split hn
        rw [hx] at hn
        simp [maxBound] at hn
        exact this hs (by rw [hx, hn])
  | k, .mk attrs vn (.unnamed fs) :: vs, hu, hw, n, hn => by
    rw [VariantsWritable] at hw; rw [maxWritesDeclaredVariants] at hn
    have next : (∃ u ∈ vs, ¬ Skipped (variantAttrs u)) → maxWritesDeclaredVariants vs = some n →
        ∃ v, MakesCalls (Derive.serVariant mode name k (.mk attrs vn (.unnamed fs) :: vs) v) (1 + n) := by
      intro h1 h2
      obtain ⟨v, hv⟩ := reached_variants mode name (k + 1) vs h1 hw.2 n h2
      exact ⟨.inr v, by rw [Derive.serVariant]; exact hv⟩
    have this : ¬ Skipped attrs → maxWritesDeclared fs = some n →
        ∃ v, MakesCalls (Derive.serVariant mode name k (.mk attrs vn (.unnamed fs) :: vs) v) (1 + n) := by
      intro h1 h2
      obtain ⟨v, hv⟩ := reached_declared mode fs (hw.1 h1) n h2
      exact ⟨.inl v, by
        rw [Derive.serVariant, if_neg (fun h => h1 ((serdeSkips_iff attrs).mp h))]
        exact (makes_serU32 _).andThen hv⟩
    by_cases hs : Skipped attrs
    · rw [if_pos hs] at hn
      rcases unskipped_or _ _ hu with h | h
      · exact next h hn
      · exact absurd hs h.1
    · rw [if_neg hs] at hn
      rcases unskipped_or _ _ hu with h | h
      · rcases maxBound_cases hn with h' | h'
        · exact this hs h'
        · exact next h h'
      · rw [declaredVariants_zero vs h.2] at hn
        obtain ⟨x, y, hx, hy, h1, h2⟩ := maxBound_split hn
        rw [hx] at hn
        simp [maxBound] at hn
        exact this hs (by rw [hx, hn])
  | k, .mk attrs vn .unit :: vs, hu, hw, n, hn => by
    rw [VariantsWritable] at hw; rw [maxWritesDeclaredVariants] at hn
    rcases unskipped_or _ _ hu with h | ⟨h1, h2⟩
    · obtain ⟨v, hv⟩ := reached_variants mode name (k + 1) vs h hw n hn
      exact ⟨.inr v, by rw [Derive.serVariant]; exact hv⟩
    · rw [declaredVariants_zero vs h2] at hn
      cases hn
      exact ⟨.inl (), by
        rw [Derive.serVariant, if_neg (fun h => h1 ((serdeSkips_iff attrs).mp h))]
        exact (makes_serU32 _).andThen makes_skip⟩
end

end Dlhn
