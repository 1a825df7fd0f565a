import Verif.Proof.Eq
import Verif.Props.Body
import Verif.Props.Header
import Verif.Props.BigNum
import Verif.Props.Date
/-!
# C95, C96: equality

`Body.eq a b` is `a == b` for bodies, `Header.eq` for headers, `BigUint.eq` etc. for
numbers and dates; `lt` is their `<`. `SameBody` (`Spec/Eq.lean`) says what it is for
two bodies to mean the same, `single` and `double` what number the bits of a
float stand for.
-/
namespace Dlhn.Props

open Spec

/-! ## C95 dynamic values and headers -/

/-- `==` on floats is equality of the numbers they stand for; NaN equals nothing. -/
theorem C95_floats :
    (∀ a b, f32Eq a b = true ↔ single a ≠ .nan ∧ single a = single b) ∧
    ∀ a b, f64Eq a b = true ↔ double a ≠ .nan ∧ double a = double b :=
  ⟨f32Eq_iff, f64Eq_iff⟩

/-- `==` on the bodies that exist on a target holds exactly of those that mean the
same. -/
theorem C95_meaning (t : Target) (a b : Body) (ha : Exists t a) (hb : Exists t b) :
    Body.eq a b = true ↔ SameBody a b := by
  rw [Body.eq_iff_alike]
  exact ⟨fun h => Body.same_of_alike h (Body.sorted_of_exists ha),
    fun h => Body.alike_of_same h (Body.sorted_of_exists ha) (Body.sorted_of_exists hb)⟩

/-- `==` is symmetric and transitive, and a body equals itself exactly if it
contains no NaN. -/
theorem C95_equivalence (a b c : Body) :
    (Body.eq a b = Body.eq b a) ∧
    (Body.eq a b = true → Body.eq b c = true → Body.eq a c = true) ∧
    (Body.eq a a = true ↔ ¬ HasNan a) := by
  refine ⟨?_, fun h h' => ?_, ?_⟩
  · rw [Bool.eq_iff_iff, Body.eq_iff_alike, Body.eq_iff_alike]
    exact ⟨Body.Alike.symm, Body.Alike.symm⟩
  · rw [Body.eq_iff_alike] at *
    exact h.trans h'
  · rw [Body.eq_iff_alike]
    exact ⟨Body.Alike.no_nan, Body.alike_self a⟩

/-- The body read back equals, by `==`, the one written exactly if that contains no
NaN. -/
theorem C95_roundtrip (t : Target) (hm : 4096 ≤ t.memLimit) (mode : BuildMode) (size : Nat)
    (h : Header) (b : Body) (hv : Body.validate h b = true) (he : Exists t b)
    (hc : CleanDecimals b) (hd : DatesFit mode b) (hf : VectorsFit t size b) :
    ∃ enc, Body.toVec mode b = (enc, .ok ()) ∧ ∀ rest, ∃ b',
      Prog.run t (Body.de t mode size h) (enc ++ rest) = .ok (b', rest) ∧
      (Body.eq b' b = true ↔ ¬ HasNan b) := by
  obtain ⟨enc, h1, h2⟩ := C35_roundtrip t hm mode size h b hv he hc hd hf
  exact ⟨enc, h1, fun rest => ⟨b, h2 rest, (C95_equivalence b b b).2.2⟩⟩

/-- Equal bodies validate against the same headers. -/
theorem C95_validate (a b : Body) (h : Body.eq a b = true) (s : Header) :
    Body.validate s a = Body.validate s b := by
  rw [Body.eq_iff_alike] at h
  rw [Bool.eq_iff_iff, Body.validate_iff, Body.validate_iff]
  exact ⟨h.conforms, h.symm.conforms⟩

/-- Equal bodies that contain no zero float are identical, so they are serialized
identically. -/
theorem C95_identical (a b : Body) (h : Body.eq a b = true) (hz : ¬ HasZero a) :
    a = b ∧ ∀ mode, Body.toVec mode a = Body.toVec mode b := by
  rw [Body.eq_iff_alike] at h
  have := h.identical hz
  exact ⟨this, fun mode => by rw [this]⟩

/-- Equal bodies take equally many bytes. -/
theorem C95_length (t : Target) (mode : BuildMode) (a b : Body) (h : Body.eq a b = true)
    (ha : Exists t a) (hb : Exists t b) (da : DatesFit mode a) (db : DatesFit mode b) :
    ∃ x y, Body.toVec mode a = (x, .ok ()) ∧ Body.toVec mode b = (y, .ok ()) ∧
      x.length = y.length := by
  rw [Body.eq_iff_alike] at h
  exact ⟨_, _, C35_encoding t mode a ha da, C35_encoding t mode b hb db, h.length⟩

/-- Conversely, bodies of one shape with the same bytes are equal, unless they
contain a NaN. -/
theorem C95_bytes (t : Target) (hm : 4096 ≤ t.memLimit) (mode : BuildMode) (size : Nat)
    (h : Header) (a b : Body) (va : Body.validate h a = true) (ea : Exists t a)
    (ca : CleanDecimals a) (da : DatesFit mode a) (fa : VectorsFit t size a)
    (vb : Body.validate h b = true) (eb : Exists t b) (cb : CleanDecimals b)
    (db : DatesFit mode b) (fb : VectorsFit t size b)
    (hw : (Body.toVec mode a).1 = (Body.toVec mode b).1) : Body.eq a b = true ↔ ¬ HasNan a := by
  have := C35_prefix_free t hm mode size h a b va ea ca da fa vb eb cb db fb (hw ▸ List.prefix_refl _)
  subst this
  exact (C95_equivalence a a a).2.2

/-- The exceptions occur: the two zeros are equal but serialized differently, a NaN
has one serialization and is read back as itself, but is not equal to itself. -/
theorem C95_exceptions :
    (Body.eq (.float32 0) (.float32 0x80000000) = true ∧
      (Body.toVec .debug (.float32 0)).1 ≠ (Body.toVec .debug (.float32 0x80000000)).1) ∧
    (Body.eq (.float64 0) (.float64 0x8000000000000000) = true ∧
      (Body.toVec .debug (.float64 0)).1 ≠ (Body.toVec .debug (.float64 0x8000000000000000)).1) ∧
    HasNan (.array [.float32 0x7fc00000]) ∧
    Body.eq (.array [.float32 0x7fc00000]) (.array [.float32 0x7fc00000]) = false := by
  refine ⟨by decide +kernel, by decide +kernel, ⟨.float32 0x7fc00000, ?_, .inl ⟨_, rfl, by decide⟩⟩,
    by decide +kernel⟩
  simp [parts, partsAll]

/-- `==` on headers is equality, and holds exactly of headers with the same
bytes. -/
theorem C95_header (a b : Header) :
    (Header.eq a b = true ↔ a = b) ∧
    (Countable a → Countable b → (Header.eq a b = true ↔ a.toVec.1 = b.toVec.1)) := by
  refine ⟨Header.eq_iff a b, fun ha hb => ?_⟩
  rw [Header.eq_iff]
  exact ⟨fun h => by rw [h], fun h => C30_prefix_free a b ha hb (h ▸ List.prefix_refl _)⟩

/-- Two arrays that mean the same though they differ in the sign of a zero; neither
contains a NaN. -/
example : SameBody (.array [.float32 0, .float32 0x3f800000])
    (.array [.float32 0x80000000, .float32 0x3f800000]) := by
  refine .array rfl fun i a b h1 h2 => ?_
  match i with
  | 0 => cases h1; cases h2; exact .float32 (by unfold FloatValue.Equal; decide +kernel)
  | 1 => cases h1; cases h2; exact .float32 (by unfold FloatValue.Equal; decide +kernel)
  | _ + 2 => simp at h1

example : Body.eq sampleBody sampleBody = true :=
  (C95_equivalence _ sampleBody sampleBody).2.2.mpr fun ⟨c, hc, h⟩ => by
    simp [sampleBody, parts, partsAll, partsEntries] at hc
    rcases hc with rfl | rfl | rfl | rfl | rfl | rfl | rfl | rfl | rfl | rfl | rfl <;> simp at h

/-- What some bits stand for: 1, the smallest positive number, and minus infinity. -/
example : single 0x3f800000 = .finite (2 ^ 149) ∧ single 1 = .finite 1 ∧
    double 0x3ff0000000000000 = .finite (2 ^ 1074) ∧ single 0xff800000 = .infinite true := by
  decide +kernel

/-! ## C96 numbers, dates and timestamps -/

/-- Numbers converted from `num_bigint` are equal exactly if they are the same
number; decimals if they are the same number whatever their scale; dates and
timestamps if they are the same day and the same instant. -/
theorem C96_converted :
    (∀ m n : Nat, (BigUint.ofNum m).eq (BigUint.ofNum n) = true ↔ m = n) ∧
    (∀ x y : Int, (BigInt.ofNum x).eq (BigInt.ofNum y) = true ↔ x = y) ∧
    (∀ (mode : BuildMode) (v w : Num.Decimal) (a b : BigDecimal), ScaleFits v → ScaleFits w →
      BigDecimal.ofNum mode v = .ok a → BigDecimal.ofNum mode w = .ok b →
      (a.eq b = true ↔ SameNumber v w)) ∧
    (∀ a b : Time.Date, a.Valid → b.Valid → ((Date.ofTime a).eq (Date.ofTime b) = true ↔
      dayNumber a.year.toInt a.ordinal.toNat = dayNumber b.year.toInt b.ordinal.toNat)) ∧
    ∀ a b : Time.OffsetDateTime, a.Valid → b.Valid →
      ((DateTime.ofTime a).eq (DateTime.ofTime b) = true ↔ a.instant = b.instant) := by
  refine ⟨fun m n => ?_, fun x y => ?_, fun mode v w a b hv hw ha hb => ?_, fun a b ha hb => ?_,
    fun a b ha hb => ?_⟩
  · rw [BigUint.eq_iff]
    exact ⟨fun h => by rw [← C43_convert m, h, C43_convert], fun h => by rw [h]⟩
  · rw [BigInt.eq_iff]
    exact ⟨fun h => by rw [← C44_convert x, h, C44_convert], fun h => by rw [h]⟩
  · rw [BigDecimal.eq_iff, ← C45_canonical mode mode v w hv hw, ha, hb]
    simp
  · rw [Date.eq_iff]; exact C54_date_eq a b ha hb
  · rw [DateTime.eq_iff]; exact (C54_date_time a b ha hb).2

/-- Values that were decoded can be the same number and yet differ. -/
theorem C96_decoded :
    (∃ a b : BigUint, Prog.run ⟨.w64, 4096⟩ (BigUint.de ⟨.w64, 4096⟩) [1, 5] = .ok (a, []) ∧
      Prog.run ⟨.w64, 4096⟩ (BigUint.de ⟨.w64, 4096⟩) [2, 5, 0] = .ok (b, []) ∧
      a.toNum = b.toNum ∧ a.eq b = false) ∧
    (∃ a b : BigInt, Prog.run ⟨.w64, 4096⟩ (BigInt.de ⟨.w64, 4096⟩) [1, 255] = .ok (a, []) ∧
      Prog.run ⟨.w64, 4096⟩ (BigInt.de ⟨.w64, 4096⟩) [2, 255, 255] = .ok (b, []) ∧
      a.toNum = b.toNum ∧ a.eq b = false) ∧
    ∃ a b : BigDecimal, Prog.run ⟨.w64, 4096⟩ (BigDecimal.de ⟨.w64, 4096⟩) [1, 1, 0] = .ok (a, []) ∧
      Prog.run ⟨.w64, 4096⟩ (BigDecimal.de ⟨.w64, 4096⟩) [1, 10, 2] = .ok (b, []) ∧
      SameNumber a.toNum b.toNum ∧ a.eq b = false :=
  ⟨⟨⟨[5]⟩, ⟨[5, 0]⟩, by decide +kernel, by decide +kernel, by decide +kernel, by decide +kernel⟩,
    ⟨⟨[255]⟩, ⟨[255, 255]⟩, by decide +kernel, by decide +kernel, by decide +kernel,
      by decide +kernel⟩,
    ⟨[1], 0⟩, ⟨[10], 1⟩, by decide +kernel, by decide +kernel,
      ⟨1, 0, by decide +kernel, by decide +kernel⟩, by decide +kernel⟩

/-- Equality and order of the five types fit together, for all values, converted or
decoded. -/
theorem C96_order :
    OrderedBy BigUint.eq BigUint.lt ∧ OrderedBy BigInt.eq BigInt.lt ∧
    OrderedBy BigDecimal.eq BigDecimal.lt ∧ OrderedBy Date.eq Date.lt ∧
    OrderedBy DateTime.eq DateTime.lt := by
  refine ⟨ordered_of (·.bytes) (fun ⟨_⟩ ⟨_⟩ h => by cases h; rfl) BigUint.eq_iff
      (fun a b => by simp [BigUint.lt]),
    ordered_of (·.bytes) (fun ⟨_⟩ ⟨_⟩ h => by cases h; rfl) BigInt.eq_iff
      (fun a b => by simp [BigInt.lt]), ?_, ?_, ?_⟩
  · refine ordered_pair (·.signedBytes) (·.scale.toInt) (fun a b h1 h2 => ?_) BigDecimal.eq_iff
      (fun a b => ?_)
    · cases a; cases b; cases h1; dsimp only at h2; rw [Int64.toInt_inj.mp h2]
    · simp [BigDecimal.lt, Int64.lt_iff_toInt_lt]
  · refine ordered_ints (·.year.toInt) (·.ordinal.toNat) (fun a b h1 h2 => ?_) Date.eq_iff
      (fun a b => ?_)
    · cases a; cases b; dsimp only at h1 h2; rw [Int32.toInt_inj.mp h1, UInt16.toNat_inj.mp (Int.ofNat.inj h2)]
    · simp [Date.lt, Int32.lt_iff_toInt_lt, UInt16.lt_iff_toNat_lt, Int32.toInt_inj]
  · refine ordered_ints (·.unixTimestamp.toInt) (·.nanosecond.toNat) (fun a b h1 h2 => ?_)
      DateTime.eq_iff (fun a b => ?_)
    · cases a; cases b; dsimp only at h1 h2; rw [Int64.toInt_inj.mp h1, UInt32.toNat_inj.mp (Int.ofNat.inj h2)]
    · simp [DateTime.lt, Int64.lt_iff_toInt_lt, UInt32.lt_iff_toNat_lt, Int64.toInt_inj]

end Dlhn.Props
