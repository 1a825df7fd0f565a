import Verif.Spec.Cost
import Verif.Proof.DeHas
import Verif.Proof.BodyYield
import Verif.Proof.BodySer
/-! # The size of decoded values -/
namespace Dlhn.Spec

theorem varint_pos (w n : Nat) : 1 ≤ (varint w n).length :=
  List.length_pos_iff.mpr (Body.varint_ne_nil _ _)

theorem block_length (bs : List UInt8) : bs.length + 1 ≤ (block bs).length := by
  have := varint_pos 64 bs.length
  rw [block, List.length_append]
  omega

/-! ## Types whose values take space -/

mutual
theorem wide_wire {t : Target} : (ty : Ty) → Wide ty → (v : Val) → Has t ty v →
    1 ≤ (wire v).length
  | .bool, _, v, h => by rw [Has] at h; obtain ⟨x, rfl⟩ := h; simp [wire]
  | .i8, _, v, h => by rw [Has] at h; obtain ⟨x, rfl⟩ := h; simp [wire]
  | .i16, _, v, h => by rw [Has] at h; obtain ⟨x, rfl⟩ := h; rw [wire]; exact varint_pos _ _
  | .i32, _, v, h => by rw [Has] at h; obtain ⟨x, rfl⟩ := h; rw [wire]; exact varint_pos _ _
  | .i64, _, v, h => by rw [Has] at h; obtain ⟨x, rfl⟩ := h; rw [wire]; exact varint_pos _ _
  | .i128, hw, _, _ => absurd hw (by simp [Wide])
  | .u8, _, v, h => by rw [Has] at h; obtain ⟨x, rfl⟩ := h; simp [wire]
  | .u16, _, v, h => by rw [Has] at h; obtain ⟨x, rfl⟩ := h; rw [wire]; exact varint_pos _ _
  | .u32, _, v, h => by rw [Has] at h; obtain ⟨x, rfl⟩ := h; rw [wire]; exact varint_pos _ _
  | .u64, _, v, h => by rw [Has] at h; obtain ⟨x, rfl⟩ := h; rw [wire]; exact varint_pos _ _
  | .u128, hw, _, _ => absurd hw (by simp [Wide])
  | .f32, _, v, h => by rw [Has] at h; obtain ⟨x, rfl⟩ := h; simp [wire, leBytes]
  | .f64, _, v, h => by rw [Has] at h; obtain ⟨x, rfl⟩ := h; simp [wire, leBytes]
  | .char, _, v, h => by
    rw [Has] at h; obtain ⟨x, rfl⟩ := h; rw [wire]
    exact Nat.le_trans (Nat.le_add_left _ _) (block_length _)
  | .string, _, v, h => by
    rw [Has] at h; obtain ⟨x, rfl, -⟩ := h; rw [wire]
    exact Nat.le_trans (Nat.le_add_left _ _) (block_length _)
  | .byteBuf, _, v, h => by
    rw [Has] at h; obtain ⟨x, rfl, -⟩ := h; rw [wire]
    exact Nat.le_trans (Nat.le_add_left _ _) (block_length _)
  | .str, _, v, h => by
    rw [Has] at h; obtain ⟨x, rfl, -⟩ := h; rw [wire]
    exact Nat.le_trans (Nat.le_add_left _ _) (block_length _)
  | .bytes, _, v, h => by
    rw [Has] at h; obtain ⟨x, rfl, -⟩ := h; rw [wire]
    exact Nat.le_trans (Nat.le_add_left _ _) (block_length _)
  | .any, _, v, h => absurd h (by simp [Has])
  | .ignoredAny, _, v, h => absurd h (by simp [Has])
  | .option ty, _, v, h => by
    rw [Has] at h
    rcases h with rfl | ⟨w, rfl, -⟩ <;> simp [wire]
  | .unit, hw, _, _ => absurd hw (by simp [Wide])
  | .unitStruct _, hw, _, _ => absurd hw (by simp [Wide])
  | .newtypeStruct _ ty, hw, v, h => by
    rw [Has] at h; obtain ⟨w, rfl, h⟩ := h
    rw [wire]; rw [Wide] at hw
    exact wide_wire ty hw w h
  | .seq ty, _, v, h => by
    rw [Has] at h; obtain ⟨vs, rfl, -⟩ := h
    rw [wire, lengthPrefix, List.length_append]
    have := varint_pos 64 vs.length
    omega
  | .tuple ts, hw, v, h => by
    rw [Has] at h; obtain ⟨vs, rfl, h⟩ := h
    rw [wire]; rw [Wide] at hw
    exact wide_all ts hw vs h
  | .tupleStruct _ ts, hw, v, h => by
    rw [Has] at h; obtain ⟨vs, rfl, h⟩ := h
    rw [wire]; rw [Wide] at hw
    exact wide_all ts hw vs h
  | .map kt vt, _, v, h => by
    rw [Has] at h; obtain ⟨es, rfl, -⟩ := h
    rw [wire, lengthPrefix, List.length_append]
    have := varint_pos 64 es.length
    omega
  | .struct _ fts, hw, v, h => by
    rw [Has] at h; obtain ⟨fs, rfl, h⟩ := h
    rw [wire]; rw [Wide] at hw
    exact wide_fields fts hw fs h
  | .enum name vs, _, v, h => by
    rw [Has] at h
    exact wide_variant name 0 vs v h
theorem wide_all {t : Target} : (ts : List Ty) → SomeWide ts → (vs : List Val) → HasAll t ts vs →
    1 ≤ (wireAll vs).length
  | [], hw, _, _ => absurd hw (by simp [SomeWide])
  | ty :: ts, hw, vs, h => by
    rw [HasAll] at h
    obtain ⟨w, ws, rfl, h1, h2⟩ := h
    rw [wireAll, List.length_append]
    rw [SomeWide] at hw
    rcases hw with hw | hw
    · have := wide_wire ty hw w h1; omega
    · have := wide_all ts hw ws h2; omega
theorem wide_fields {t : Target} : (fts : List (String × Ty)) → SomeFieldWide fts →
    (fs : List (String × Val)) → HasFields t fts fs → 1 ≤ (wireFields fs).length
  | [], hw, _, _ => absurd hw (by simp [SomeFieldWide])
  | (n, ty) :: fts, hw, fs, h => by
    rw [HasFields] at h
    obtain ⟨w, ws, rfl, h1, h2⟩ := h
    rw [wireFields, List.length_append]
    rw [SomeFieldWide] at hw
    rcases hw with hw | hw
    · have := wide_wire ty hw w h1; omega
    · have := wide_fields fts hw ws h2; omega
theorem wide_variant {t : Target} (name : String) : (k : Nat) → (vs : List (String × VTy)) →
    (v : Val) → HasVariant t name k vs v → 1 ≤ (wire v).length
  | _, [], _, h => absurd h (by simp [HasVariant])
  | k, (vn, vt) :: vs, v, h => by
    rw [HasVariant] at h
    rcases h with h | h
    · have := varint_pos 32 (UInt32.ofNat k).toNat
      cases vt with
      | unit => rw [HasPayload] at h; subst h; rw [wire]; exact this
      | newtype ty =>
        rw [HasPayload] at h; obtain ⟨w, rfl, -⟩ := h
        rw [wire, List.length_append]; omega
      | tuple ts =>
        rw [HasPayload] at h; obtain ⟨w, rfl, -⟩ := h
        rw [wire, List.length_append]; omega
      | struct fs =>
        rw [HasPayload] at h; obtain ⟨w, rfl, -⟩ := h
        rw [wire, List.length_append]; omega
    · exact wide_variant name (k + 1) vs v h
end

/-! ## Parts and bytes -/

theorem scale {a b : Nat} (h : a ≤ b) (n : Nat) : a * n ≤ b * n := Nat.mul_le_mul_right n h

theorem one_scale {n : Nat} (a : Nat) (h : 1 ≤ n) : a ≤ a * n := Nat.le_mul_of_pos_right a h

/-- A leaf of which the bytes pay for all parts. -/
theorem leaf_bound {t : Target} {ty : Ty} (hp : tyParts ty = 1)
    (h : ∀ v, Has t ty v → valParts v ≤ (wire v).length) :
    ∃ a b, a + b ≤ tyParts ty ∧ ∀ v, Has t ty v → valParts v ≤ a * (wire v).length + b :=
  ⟨1, 0, by omega, fun v hv => by have := h v hv; omega⟩

mutual
theorem size_bound {t : Target} : (ty : Ty) → Supported ty → Dense ty →
    ∃ a b, a + b ≤ tyParts ty ∧ ∀ v, Has t ty v → valParts v ≤ a * (wire v).length + b
  | .bool, _, _ => leaf_bound (by simp [tyParts]) fun v h => by
    have hw := wide_wire .bool (by simp [Wide]) v h
    rw [Has] at h; obtain ⟨x, rfl⟩ := h; simpa [valParts] using hw
  | .i8, _, _ => leaf_bound (by simp [tyParts]) fun v h => by
    have hw := wide_wire .i8 (by simp [Wide]) v h
    rw [Has] at h; obtain ⟨x, rfl⟩ := h; simpa [valParts] using hw
  | .i16, _, _ => leaf_bound (by simp [tyParts]) fun v h => by
    have hw := wide_wire .i16 (by simp [Wide]) v h
    rw [Has] at h; obtain ⟨x, rfl⟩ := h; rw [valParts]; exact hw
    all_goals simp
  | .i32, _, _ => leaf_bound (by simp [tyParts]) fun v h => by
    have hw := wide_wire .i32 (by simp [Wide]) v h
    rw [Has] at h; obtain ⟨x, rfl⟩ := h; rw [valParts]; exact hw
    all_goals simp
  | .i64, _, _ => leaf_bound (by simp [tyParts]) fun v h => by
    have hw := wide_wire .i64 (by simp [Wide]) v h
    rw [Has] at h; obtain ⟨x, rfl⟩ := h; rw [valParts]; exact hw
    all_goals simp
  | .i128, hs, _ => absurd hs (by simp [Supported])
  | .u8, _, _ => leaf_bound (by simp [tyParts]) fun v h => by
    have hw := wide_wire .u8 (by simp [Wide]) v h
    rw [Has] at h; obtain ⟨x, rfl⟩ := h; simpa [valParts] using hw
  | .u16, _, _ => leaf_bound (by simp [tyParts]) fun v h => by
    have hw := wide_wire .u16 (by simp [Wide]) v h
    rw [Has] at h; obtain ⟨x, rfl⟩ := h; rw [valParts]; exact hw
    all_goals simp
  | .u32, _, _ => leaf_bound (by simp [tyParts]) fun v h => by
    have hw := wide_wire .u32 (by simp [Wide]) v h
    rw [Has] at h; obtain ⟨x, rfl⟩ := h; rw [valParts]; exact hw
    all_goals simp
  | .u64, _, _ => leaf_bound (by simp [tyParts]) fun v h => by
    have hw := wide_wire .u64 (by simp [Wide]) v h
    rw [Has] at h; obtain ⟨x, rfl⟩ := h; rw [valParts]; exact hw
    all_goals simp
  | .u128, hs, _ => absurd hs (by simp [Supported])
  | .f32, _, _ => leaf_bound (by simp [tyParts]) fun v h => by
    have hw := wide_wire .f32 (by simp [Wide]) v h
    rw [Has] at h; obtain ⟨x, rfl⟩ := h; rw [valParts]; exact hw
    all_goals simp
  | .f64, _, _ => leaf_bound (by simp [tyParts]) fun v h => by
    have hw := wide_wire .f64 (by simp [Wide]) v h
    rw [Has] at h; obtain ⟨x, rfl⟩ := h; rw [valParts]; exact hw
    all_goals simp
  | .char, _, _ => leaf_bound (by simp [tyParts]) fun v h => by
    rw [Has] at h; obtain ⟨x, rfl⟩ := h
    rw [valParts, wire, Nat.add_comm]; exact block_length _
  | .string, _, _ => leaf_bound (by simp [tyParts]) fun v h => by
    rw [Has] at h; obtain ⟨x, rfl, -⟩ := h
    rw [valParts, wire, Nat.add_comm]; exact block_length _
  | .byteBuf, _, _ => leaf_bound (by simp [tyParts]) fun v h => by
    rw [Has] at h; obtain ⟨x, rfl, -⟩ := h
    rw [valParts, wire, Nat.add_comm]; exact block_length _
  | .str, hs, _ => absurd hs (by simp [Supported])
  | .bytes, hs, _ => absurd hs (by simp [Supported])
  | .any, hs, _ => absurd hs (by simp [Supported])
  | .ignoredAny, hs, _ => absurd hs (by simp [Supported])
  | .unit, _, _ => ⟨0, 1, by simp [tyParts], fun v h => by
      rw [Has] at h; subst h; simp [valParts]⟩
  | .unitStruct _, _, _ => ⟨0, 1, by simp [tyParts], fun v h => by
      rw [Has] at h; subst h; simp [valParts]⟩
  | .option ty, hs, hd => by
    rw [Supported] at hs; rw [Dense] at hd
    obtain ⟨a, b, hab, ih⟩ := size_bound (t := t) ty hs hd
    refine ⟨1 + a + b, 0, by rw [tyParts]; omega, fun v h => ?_⟩
    rw [Has] at h
    rcases h with rfl | ⟨w, rfl, h⟩
    · rw [valParts, wire, List.length_singleton]; omega
      all_goals simp
    · have := ih w h
      rw [valParts, wire, List.length_cons, Nat.mul_add]
      have := scale (show a ≤ 1 + a + b by omega) (wire w).length
      omega
  | .newtypeStruct _ ty, hs, hd => by
    rw [Supported] at hs; rw [Dense] at hd
    obtain ⟨a, b, hab, ih⟩ := size_bound (t := t) ty hs hd
    refine ⟨a, 1 + b, by rw [tyParts]; omega, fun v h => ?_⟩
    rw [Has] at h
    obtain ⟨w, rfl, h⟩ := h
    have := ih w h
    rw [valParts, wire]
    omega
  | .seq ty, hs, hd => by
    rw [Supported] at hs; rw [Dense] at hd
    obtain ⟨a, b, hab, ih⟩ := size_bound (t := t) ty hs hd.2
    refine ⟨1 + a + b, 0, by rw [tyParts]; omega, fun v h => ?_⟩
    rw [Has] at h
    obtain ⟨vs, rfl, -, h⟩ := h
    have hall : ∀ l : List Val, (∀ w ∈ l, Has t ty w) →
        valPartsAll l ≤ (1 + a + b) * (wireAll l).length := by
      intro l hl
      induction l with
      | nil => simp [valPartsAll]
      | cons w l ihl =>
        have h1 := ih w (hl w (by simp))
        have h2 := ihl fun x hx => hl x (by simp [hx])
        have h3 := wide_wire ty hd.1 w (hl w (by simp))
        have h4 := one_scale b h3
        have h5 : (1 + a + b) * (wire w).length
            = (wire w).length + a * (wire w).length + b * (wire w).length := by
          rw [Nat.add_mul, Nat.add_mul, Nat.one_mul]
        rw [valPartsAll, wireAll, List.length_append, Nat.mul_add]
        omega
    have h1 := hall vs h
    rw [valParts, wire, lengthPrefix, List.length_append, Nat.mul_add]
    have h2 := one_scale (1 + a + b) (varint_pos 64 vs.length)
    omega
  | .tuple ts, hs, hd => by
    rw [Supported] at hs; rw [Dense] at hd
    obtain ⟨a, b, hab, ih⟩ := size_boundAll (t := t) ts hs hd
    refine ⟨a, 1 + b, by rw [tyParts]; omega, fun v h => ?_⟩
    rw [Has] at h
    obtain ⟨vs, rfl, h⟩ := h
    have := ih vs h
    rw [valParts, wire]
    omega
  | .tupleStruct _ ts, hs, hd => by
    rw [Supported] at hs; rw [Dense] at hd
    obtain ⟨a, b, hab, ih⟩ := size_boundAll (t := t) ts hs hd
    refine ⟨a, 1 + b, by rw [tyParts]; omega, fun v h => ?_⟩
    rw [Has] at h
    obtain ⟨vs, rfl, h⟩ := h
    have := ih vs h
    rw [valParts, wire]
    omega
  | .map kt vt, hs, hd => by
    rw [Supported] at hs; rw [Dense] at hd
    obtain ⟨rfl, hs⟩ := hs
    obtain ⟨a, b, hab, ih⟩ := size_bound (t := t) vt hs hd.2
    refine ⟨1 + a + b, 0, by rw [tyParts]; omega, fun v h => ?_⟩
    rw [Has] at h
    obtain ⟨es, rfl, -, h⟩ := h
    have hall : ∀ l : List (Val × Val), (∀ e ∈ l, Has t .string e.1 ∧ Has t vt e.2) →
        valPartsEntries l ≤ (1 + a + b) * (wireEntries l).length := by
      intro l hl
      induction l with
      | nil => simp [valPartsEntries]
      | cons e l ihl =>
        obtain ⟨k, w⟩ := e
        obtain ⟨hk, hw⟩ := hl (k, w) (by simp)
        have h1 := ih w hw
        have h2 := ihl fun x hx => hl x (by simp [hx])
        simp only [Has] at hk
        obtain ⟨s, rfl, -⟩ := hk
        have h3 := block_length (utf8 s)
        have h4 := one_scale b (show 1 ≤ (block (utf8 s)).length by omega)
        have h5 : (1 + a + b) * (block (utf8 s)).length = (block (utf8 s)).length
            + a * (block (utf8 s)).length + b * (block (utf8 s)).length := by
          rw [Nat.add_mul, Nat.add_mul, Nat.one_mul]
        have h6 := scale (show a ≤ 1 + a + b by omega) (wire w).length
        rw [valPartsEntries, valParts, wireEntries, List.length_append, List.length_append,
          Nat.mul_add, Nat.mul_add, wire]
        omega
    have h1 := hall es h
    rw [valParts, wire, lengthPrefix, List.length_append, Nat.mul_add]
    have h2 := one_scale (1 + a + b) (varint_pos 64 es.length)
    omega
  | .struct _ fts, hs, hd => by
    rw [Supported] at hs; rw [Dense] at hd
    obtain ⟨a, b, hab, ih⟩ := size_boundFields (t := t) fts hs hd
    refine ⟨a, 1 + b, by rw [tyParts]; omega, fun v h => ?_⟩
    rw [Has] at h
    obtain ⟨vs, rfl, h⟩ := h
    have := ih vs h
    rw [valParts, wire]
    omega
  | .enum name vs, hs, hd => by
    rw [Supported] at hs; rw [Dense] at hd
    obtain ⟨a, ha, ih⟩ := size_boundVariants (t := t) name vs hs.2 hd
    refine ⟨a, 0, by rw [tyParts]; omega, fun v h => ?_⟩
    rw [Has] at h
    exact ih 0 v h
theorem size_boundAll {t : Target} : (ts : List Ty) → AllSupported ts → AllDense ts →
    ∃ a b, a + b ≤ tyPartsAll ts ∧
      ∀ vs, HasAll t ts vs → valPartsAll vs ≤ a * (wireAll vs).length + b
  | [], _, _ => ⟨0, 0, by simp [tyPartsAll], fun vs h => by
      rw [HasAll] at h; subst h; simp [valPartsAll]⟩
  | ty :: ts, hs, hd => by
    rw [AllSupported] at hs; rw [AllDense] at hd
    obtain ⟨a, b, hab, ih⟩ := size_bound (t := t) ty hs.1 hd.1
    obtain ⟨a', b', hab', ih'⟩ := size_boundAll (t := t) ts hs.2 hd.2
    refine ⟨a + a', b + b', by rw [tyPartsAll]; omega, fun vs h => ?_⟩
    rw [HasAll] at h
    obtain ⟨w, ws, rfl, h1, h2⟩ := h
    have i1 := ih w h1
    have i2 := ih' ws h2
    rw [valPartsAll, wireAll, List.length_append, Nat.mul_add]
    have := scale (show a ≤ a + a' by omega) (wire w).length
    have := scale (show a' ≤ a + a' by omega) (wireAll ws).length
    omega
theorem size_boundFields {t : Target} : (fts : List (String × Ty)) → FieldsSupported fts →
    FieldsDense fts → ∃ a b, a + b ≤ tyPartsFields fts ∧
      ∀ fs, HasFields t fts fs → valPartsFields fs ≤ a * (wireFields fs).length + b
  | [], _, _ => ⟨0, 0, by simp [tyPartsFields], fun vs h => by
      rw [HasFields] at h; subst h; simp [valPartsFields]⟩
  | (_, ty) :: ts, hs, hd => by
    rw [FieldsSupported] at hs; rw [FieldsDense] at hd
    obtain ⟨a, b, hab, ih⟩ := size_bound (t := t) ty hs.1 hd.1
    obtain ⟨a', b', hab', ih'⟩ := size_boundFields (t := t) ts hs.2 hd.2
    refine ⟨a + a', b + b', by rw [tyPartsFields]; omega, fun vs h => ?_⟩
    rw [HasFields] at h
    obtain ⟨w, ws, rfl, h1, h2⟩ := h
    have i1 := ih w h1
    have i2 := ih' ws h2
    rw [valPartsFields, wireFields, List.length_append, Nat.mul_add]
    have := scale (show a ≤ a + a' by omega) (wire w).length
    have := scale (show a' ≤ a + a' by omega) (wireFields ws).length
    omega
theorem size_boundVariants {t : Target} (name : String) : (vs : List (String × VTy)) →
    VariantsSupported vs → VariantsDense vs → ∃ a, a ≤ tyPartsVariants vs ∧
      ∀ k v, HasVariant t name k vs v → valParts v ≤ a * (wire v).length
  | [], _, _ => ⟨0, by simp, fun k v h => absurd h (by simp [HasVariant])⟩
  | (vn, vt) :: vs, hs, hd => by
    rw [VariantsSupported] at hs; rw [VariantsDense] at hd
    obtain ⟨a, ha, ih⟩ := size_boundPayload (t := t) name vn vt hs.1 hd.1
    obtain ⟨a', ha', ih'⟩ := size_boundVariants (t := t) name vs hs.2 hd.2
    refine ⟨a + a', by rw [tyPartsVariants]; omega, fun k v h => ?_⟩
    rw [HasVariant] at h
    rcases h with h | h
    · exact Nat.le_trans (ih _ v h) (scale (by omega) _)
    · exact Nat.le_trans (ih' _ v h) (scale (by omega) _)
theorem size_boundPayload {t : Target} (name vn : String) : (vt : VTy) →
    PayloadSupported vt → PayloadDense vt → ∃ a, a ≤ 1 + tyPartsPayload vt ∧
      ∀ i v, HasPayload t name i vn vt v → valParts v ≤ a * (wire v).length
  | .unit, _, _ => ⟨1, by omega, fun i v h => by
      rw [HasPayload] at h; subst h
      have := varint_pos 32 i.toNat
      rw [valParts, wire]
      · omega
      all_goals simp⟩
  | .newtype ty, hs, hd => by
    rw [PayloadSupported] at hs; rw [PayloadDense] at hd
    obtain ⟨a, b, hab, ih⟩ := size_bound (t := t) ty hs hd
    refine ⟨1 + a + b, by rw [tyPartsPayload]; omega, fun i v h => ?_⟩
    rw [HasPayload] at h; obtain ⟨w, rfl, h⟩ := h
    have h1 := ih w h
    have h2 := one_scale (1 + a + b) (varint_pos 32 i.toNat)
    have h3 := scale (show a ≤ 1 + a + b by omega) (wire w).length
    rw [valParts, wire, List.length_append, Nat.mul_add]
    omega
  | .tuple ts, hs, hd => by
    rw [PayloadSupported] at hs; rw [PayloadDense] at hd
    obtain ⟨a, b, hab, ih⟩ := size_boundAll (t := t) ts hs hd
    refine ⟨1 + a + b, by rw [tyPartsPayload]; omega, fun i v h => ?_⟩
    rw [HasPayload] at h; obtain ⟨w, rfl, h⟩ := h
    have h1 := ih w h
    have h2 := one_scale (1 + a + b) (varint_pos 32 i.toNat)
    have h3 := scale (show a ≤ 1 + a + b by omega) (wireAll w).length
    rw [valParts, wire, List.length_append, Nat.mul_add]
    omega
  | .struct fts, hs, hd => by
    rw [PayloadSupported] at hs; rw [PayloadDense] at hd
    obtain ⟨a, b, hab, ih⟩ := size_boundFields (t := t) fts hs hd
    refine ⟨1 + a + b, by rw [tyPartsPayload]; omega, fun i v h => ?_⟩
    rw [HasPayload] at h; obtain ⟨w, rfl, h⟩ := h
    have h1 := ih w h
    have h2 := one_scale (1 + a + b) (varint_pos 32 i.toNat)
    have h3 := scale (show a ≤ 1 + a + b by omega) (wireFields w).length
    rw [valParts, wire, List.length_append, Nat.mul_add]
    omega
end

/-! ## Dynamic values -/

theorem header_leaf {h : Header} (hp : headerParts h = [h])
    (hb : ∀ b, Conforms h b → bodySize b ≤ (bodyWire b).length) :
    ∃ a c, a + c ≤ (headerParts h).length ∧
      ∀ b, Conforms h b → bodySize b ≤ a * (bodyWire b).length + c :=
  ⟨1, 0, by simp [hp], fun b hc => by have := hb b hc; omega⟩

mutual
theorem body_bound : (h : Header) → DenseHeader h →
    ∃ a c, a + c ≤ (headerParts h).length ∧
      ∀ b, Conforms h b → bodySize b ≤ a * (bodyWire b).length + c
  | .unit, _ => ⟨0, 1, by simp [headerParts], fun b hc => by cases hc; simp [bodySize]⟩
  | .boolean, _ => header_leaf (by simp [headerParts]) fun b hc => by
    cases hc; simp [bodySize, bodyWire]
  | .uint8, _ => header_leaf (by simp [headerParts]) fun b hc => by
    cases hc; simp [bodySize, bodyWire]
  | .int8, _ => header_leaf (by simp [headerParts]) fun b hc => by
    cases hc; simp [bodySize, bodyWire]
  | .uint16, _ => header_leaf (by simp [headerParts]) fun b hc => by
    cases hc; simp only [bodySize, bodyWire]; exact varint_pos _ _
  | .uint32, _ => header_leaf (by simp [headerParts]) fun b hc => by
    cases hc; simp only [bodySize, bodyWire]; exact varint_pos _ _
  | .uint64, _ => header_leaf (by simp [headerParts]) fun b hc => by
    cases hc; simp only [bodySize, bodyWire]; exact varint_pos _ _
  | .int16, _ => header_leaf (by simp [headerParts]) fun b hc => by
    cases hc; simp only [bodySize, bodyWire]; exact varint_pos _ _
  | .int32, _ => header_leaf (by simp [headerParts]) fun b hc => by
    cases hc; simp only [bodySize, bodyWire]; exact varint_pos _ _
  | .int64, _ => header_leaf (by simp [headerParts]) fun b hc => by
    cases hc; simp only [bodySize, bodyWire]; exact varint_pos _ _
  | .float32, _ => header_leaf (by simp [headerParts]) fun b hc => by
    cases hc; simp [bodySize, bodyWire, leBytes]
  | .float64, _ => header_leaf (by simp [headerParts]) fun b hc => by
    cases hc; simp [bodySize, bodyWire, leBytes]
  | .bigUInt, _ => header_leaf (by simp [headerParts]) fun b hc => by
    cases hc; simp only [bodySize, bodyWire, Nat.add_comm 1]; exact block_length _
  | .bigInt, _ => header_leaf (by simp [headerParts]) fun b hc => by
    cases hc; simp only [bodySize, bodyWire, Nat.add_comm 1]; exact block_length _
  | .bigDecimal, _ => header_leaf (by simp [headerParts]) fun b hc => by
    cases hc with
    | bigDecimal v =>
      simp only [bodySize, bodyWire, decimalWire]
      split
      · rename_i he; simp [he]
      · have := block_length v.signedBytes
        rw [List.length_append]; omega
  | .string, _ => header_leaf (by simp [headerParts]) fun b hc => by
    cases hc; simp only [bodySize, bodyWire, Nat.add_comm 1]; exact block_length _
  | .binary, _ => header_leaf (by simp [headerParts]) fun b hc => by
    cases hc; simp only [bodySize, bodyWire, Nat.add_comm 1]; exact block_length _
  | .date, _ => header_leaf (by simp [headerParts]) fun b hc => by
    cases hc with
    | date d =>
      simp only [bodySize, bodyWire, dateWire, List.length_append]
      have := varint_pos 16 (d.ordinal - 1).toNat
      omega
  | .dateTime, _ => header_leaf (by simp [headerParts]) fun b hc => by
    cases hc with
    | dateTime d =>
      simp only [bodySize, bodyWire, dateTimeWire, List.length_append]
      have := varint_pos 32 d.nanosecond.toNat
      omega
  | .optional h, hd => by
    obtain ⟨a, c, hac, ih⟩ := body_bound h fun e he => hd e (by simp [headerParts, he])
    refine ⟨1 + a + c, 0, by simp [headerParts]; omega, fun b hc => ?_⟩
    cases hc with
    | none => simp only [bodySize, bodyWire, List.length_singleton]; omega
    | some _ b hc =>
      have := ih b hc
      have := scale (show a ≤ 1 + a + c by omega) (bodyWire b).length
      rw [bodySize, bodyWire, List.length_cons, Nat.mul_add]
      omega
  | .array h, hd => by
    obtain ⟨a, c, hac, ih⟩ := body_bound h fun e he => hd e (by simp [headerParts, he])
    have hz := hd h (by simp [headerParts])
    refine ⟨1 + a + c, 0, by simp [headerParts]; omega, fun b hc => ?_⟩
    cases hc with
    | array _ bs hc =>
      have hall : ∀ l : List Body, (∀ b ∈ l, Conforms h b) →
          bodySizeAll l ≤ (1 + a + c) * (bodiesWire l).length := by
        intro l hl
        induction l with
        | nil => simp [bodySizeAll]
        | cons w l ihl =>
          have h1 := ih w (hl w (by simp))
          have h2 := ihl fun x hx => hl x (by simp [hx])
          have h3 : 1 ≤ (bodyWire w).length := List.length_pos_iff.mpr fun he =>
            hz ((Body.bodyWire_nil h w (hl w (by simp))).mp he)
          have h4 := one_scale c h3
          have h5 : (1 + a + c) * (bodyWire w).length
              = (bodyWire w).length + a * (bodyWire w).length + c * (bodyWire w).length := by
            rw [Nat.add_mul, Nat.add_mul, Nat.one_mul]
          rw [bodySizeAll, bodiesWire, List.length_append, Nat.mul_add]
          omega
      have h1 := hall bs hc
      rw [bodySize, bodyWire, List.length_append, Nat.mul_add]
      have h2 := one_scale (1 + a + c) (varint_pos 64 bs.length)
      omega
  | .map h, hd => by
    obtain ⟨a, c, hac, ih⟩ := body_bound h fun e he => hd e (by simp [headerParts, he])
    refine ⟨1 + a + c, 0, by simp [headerParts]; omega, fun b hc => ?_⟩
    cases hc with
    | map _ es hc =>
      have hall : ∀ l : List (String × Body), (∀ e ∈ l, Conforms h e.2) →
          bodySizeEntries l ≤ (1 + a + c) * (entriesWire l).length := by
        intro l hl
        induction l with
        | nil => simp [bodySizeEntries]
        | cons e l ihl =>
          obtain ⟨s, w⟩ := e
          have h1 := ih w (hl (s, w) (by simp))
          have h2 := ihl fun x hx => hl x (by simp [hx])
          have h3 := block_length (utf8 s)
          have h4 := one_scale c (show 1 ≤ (block (utf8 s)).length by omega)
          have h5 : (1 + a + c) * (block (utf8 s)).length = (block (utf8 s)).length
              + a * (block (utf8 s)).length + c * (block (utf8 s)).length := by
            rw [Nat.add_mul, Nat.add_mul, Nat.one_mul]
          have h6 := scale (show a ≤ 1 + a + c by omega) (bodyWire w).length
          rw [bodySizeEntries, entriesWire, List.length_append, List.length_append,
            Nat.mul_add, Nat.mul_add]
          omega
      have h1 := hall es hc
      rw [bodySize, bodyWire, List.length_append, Nat.mul_add]
      have h2 := one_scale (1 + a + c) (varint_pos 64 es.length)
      omega
  | .tuple hs, hd => by
    obtain ⟨a, c, hac, ih, -⟩ := bodies_bound hs fun e he => hd e (by simp [headerParts, he])
    refine ⟨a, 1 + c, by simp [headerParts]; omega, fun b hc => ?_⟩
    cases hc with
    | tuple _ bs hlen hc =>
      have := ih bs hlen hc
      rw [bodySize, bodyWire]
      omega
  | .enum hs, hd => by
    obtain ⟨a, c, hac, -, ih⟩ := bodies_bound hs fun e he => hd e (by simp [headerParts, he])
    refine ⟨1 + a + c, 0, by simp [headerParts]; omega, fun b hc => ?_⟩
    cases hc with
    | enum _ i h b hi hc =>
      have h1 := ih h (List.mem_of_getElem? hi) b hc
      have h2 := one_scale (1 + a + c) (varint_pos 32 i.toNat)
      have h3 := scale (show a ≤ 1 + a + c by omega) (bodyWire b).length
      rw [bodySize, bodyWire, List.length_append, Nat.mul_add]
      omega
theorem bodies_bound : (hs : List Header) → (∀ e, .array e ∈ headersParts hs → ¬ ZeroWidth e) →
    ∃ a c, a + c ≤ (headersParts hs).length ∧
      (∀ bs, hs.length = bs.length →
        (∀ (i : Nat) (h : Header) (b : Body), hs[i]? = some h → bs[i]? = some b → Conforms h b) →
        bodySizeAll bs ≤ a * (bodiesWire bs).length + c) ∧
      ∀ h ∈ hs, ∀ b, Conforms h b → bodySize b ≤ a * (bodyWire b).length + c
  | [], _ => by
    refine ⟨0, 0, by simp, fun bs hl _ => ?_, by simp⟩
    have : bs = [] := List.eq_nil_of_length_eq_zero hl.symm
    simp [this, bodySizeAll]
  | h :: hs, hd => by
    obtain ⟨a, c, hac, ih⟩ := body_bound h fun e he => hd e (by simp [headersParts, he])
    obtain ⟨a', c', hac', ih', ihe⟩ := bodies_bound hs fun e he => hd e (by simp [headersParts, he])
    refine ⟨a + a', c + c', by rw [headersParts, List.length_append]; omega, fun bs hl hc => ?_,
      fun k hk b hb => ?_⟩
    · cases bs with
      | nil => simp at hl
      | cons b bs =>
        have i1 := ih b (hc 0 h b rfl rfl)
        have i2 := ih' bs (by simpa using hl) fun i h' b' h1 h2 => hc (i + 1) h' b' h1 h2
        rw [bodySizeAll, bodiesWire, List.length_append, Nat.mul_add]
        have := scale (show a ≤ a + a' by omega) (bodyWire b).length
        have := scale (show a' ≤ a + a' by omega) (bodiesWire bs).length
        omega
    · have e1 := scale (show a ≤ a + a' by omega) (bodyWire b).length
      have e2 := scale (show a' ≤ a + a' by omega) (bodyWire b).length
      rcases List.mem_cons.mp hk with rfl | hk
      · have := ih b hb
        omega
      · have := ihe k hk b hb
        omega
end

end Dlhn.Spec
