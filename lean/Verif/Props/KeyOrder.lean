import Verif.Proof.KeyOrder
/-!
# C138: bytes as sorted keys

`Less v w` (Spec/KeyOrder.lean) is Rust's order of values, `<` on lists of bytes the
lexicographic order, in which databases keep their keys.
-/
namespace Dlhn.Props

open Spec De

/-! ## C138 -/

/-- The bytes of the values of a type are in the order of the values exactly if the type is made
of units, `bool`, `u8` and `char`, with options, tuples, structs and enums of at most 192
variants. -/
theorem C138_iff (t : Target) (hm : 4096 ≤ t.memLimit) (ty : Ty) (hs : Supported ty)
    (hp : Populated ty) (ho : HasOrd ty) :
    (∀ v w, Has t ty v → Has t ty w → (Less v w ↔ (Ser.toVec v).1 < (Ser.toVec w).1)) ↔
      SortsByBytes ty := by
  rw [← inOrder_iff hm ty hs hp ho]
  have key : ∀ v, Has t ty v → (Ser.toVec v).1 = wire v := fun v hv => by
    obtain ⟨h1, h2⟩ := has_ok t ty hs v hv
    rw [Ser.toVec, Ser.exec_ser v h1 h2]
  constructor
  · intro h v w hv hw
    rw [← key v hv, ← key w hw]
    exact h v w hv hw
  · intro h v w hv hw
    rw [key v hv, key w hw]
    exact h v w hv hw

/-- Text is in order of length first: up to 191 bytes, shorter strings come first, and strings of
equal length are in order. -/
theorem C138_text (s u : String) (hs : (utf8 s).length < 192) (hu : (utf8 u).length < 192) :
    (Ser.toVec (.str s)).1 < (Ser.toVec (.str u)).1 ↔
      (utf8 s).length < (utf8 u).length ∨
        (utf8 s).length = (utf8 u).length ∧ Less (.str s) (.str u) := by
  have hA : Apart (varint 64 (utf8 s).length) (varint 64 (utf8 u).length) := fun r q h => by
    have b1 := exec_u64_varint ⟨.w64, 0⟩ .eof (utf8 s).length (by omega) r
    have b2 := exec_u64_varint ⟨.w64, 0⟩ .eof (utf8 u).length (by omega) q
    rw [h, b2] at b1
    simp only [Outcome.ok.injEq, Prod.mk.injEq] at b1
    have := congrArg UInt64.toNat b1.1
    rw [UInt64.toNat_ofNat', UInt64.toNat_ofNat', Nat.mod_eq_of_lt (by omega),
      Nat.mod_eq_of_lt (by omega)] at this
    rw [this]
  have hi : varint 64 (utf8 s).length = varint 64 (utf8 u).length ↔
      (utf8 s).length = (utf8 u).length := by
    refine ⟨fun h => ?_, fun h => by rw [h]⟩
    have h1 := varint_lt 64 (by decide) hs hu
    have h2 := varint_lt 64 (by decide) hu hs
    rw [h] at h1 h2
    simp only [lt_self, false_iff] at h1 h2
    omega
  have hl : Less (.str s) (.str u) ↔ utf8 s < utf8 u := by
    refine ⟨fun h => ?_, .str s u⟩
    cases h with
    | str _ _ h => exact h
    | index _ _ _ _ h => cases h
  rw [Ser.toVec, Ser.toVec, Ser.exec_ser (.str s) trivial (show _ < _ by omega),
    Ser.exec_ser (.str u) trivial (show _ < _ by omega)]
  simp only [wire, block]
  rw [lt_append hA, varint_lt 64 (by decide) hs hu, hi, hl]

/-- `"b"` and `"aa"`. -/
example : Less (.str "aa") (.str "b") ∧ (Ser.toVec (.str "b")).1 < (Ser.toVec (.str "aa")).1 :=
  ⟨.str _ _ (by rw [utf8_aa, utf8_b]; decide), by decide +kernel⟩

/-- `enum Key { Low, Char(char), Pair { a: bool, b: Option<u8> } }` -/
def keyTy : Ty := .enum "Key" [("Low", .unit), ("Char", .newtype .char),
  ("Pair", .struct [("a", .bool), ("b", .option .u8)])]

example : Supported keyTy ∧ Populated keyTy ∧ HasOrd keyTy ∧ SortsByBytes keyTy := by
  simp [keyTy, Supported, VariantsSupported, PayloadSupported, FieldsSupported, Populated,
    VariantsPopulated, PayloadPopulated, FieldsPopulated, HasOrd, VariantsHaveOrd, PayloadHasOrd,
    FieldsHaveOrd, SortsByBytes, VariantsSort, PayloadSorts, FieldsSort]

/-- Numbers of more than 8 bits, signed numbers, text, vectors and maps are not such. -/
example : ¬ SortsByBytes .u16 ∧ ¬ SortsByBytes .i8 ∧ ¬ SortsByBytes .string ∧
    ¬ SortsByBytes (.seq .u8) ∧ ¬ SortsByBytes (.map .string .u8) ∧
    ¬ SortsByBytes (.tuple [.u8, .u32]) := by
  simp [SortsByBytes, AllSort]

/-- Dates are not in order either: in every year, day 193 has smaller bytes than day 192. -/
theorem C138_dates (mode : BuildMode) (year : Int32) (h : (⟨year, 193⟩ : Time.Date).Valid) :
    (⟨year, 192⟩ : Time.Date).Valid ∧
    (Date.ofTime ⟨year, 192⟩).lt (Date.ofTime ⟨year, 193⟩) = true ∧
    ((Date.ofTime ⟨year, 193⟩).ser mode).exec.1 < ((Date.ofTime ⟨year, 192⟩).ser mode).exec.1 := by
  have hv : (⟨year, 192⟩ : Time.Date).Valid := by
    obtain ⟨h1, h2, h3, h4⟩ := h
    refine ⟨h1, h2, show 1 ≤ (192 : UInt16).toNat by decide, ?_⟩
    have : (193 : UInt16).toNat = 193 := rfl
    have : (192 : UInt16).toNat = 192 := rfl
    dsimp only at *
    omega
  refine ⟨hv, ?_, ?_⟩
  · simp [Date.lt, Date.ofTime]
  · rw [C49_bytes mode _ h, C49_bytes mode _ hv]
    dsimp only
    rw [lt_same, show (193 : UInt16).toNat - 1 = 192 from rfl, show (192 : UInt16).toNat - 1 = 191 from rfl,
      varint_two 16 191 (by decide) (by decide) (by decide),
      varint_two 16 192 (by decide) (by decide) (by decide)]
    decide

example : (⟨2026, 193⟩ : Time.Date).Valid :=
  ⟨by decide, by decide, by decide, .inl (by decide)⟩

/-- 191 and 192, -1 and 0. -/
example : (Ser.toVec (.u16 192)).1 < (Ser.toVec (.u16 191)).1 ∧
    (Ser.toVec (.i16 0)).1 < (Ser.toVec (.i16 (-1))).1 := by decide +kernel

end Dlhn.Props
