import Verif.Proof.SameData
import Verif.Proof.DeriveGrammar
import Verif.Spec.DeriveAgree
/-!
# The body that shows a value

Without a `HashMap` and without a `bigdecimal::BigDecimal` there is at most one.
-/
namespace Dlhn.Derive

open Spec

/-- One type whose values are shown by at most one body. -/
structure ShownPart (U : RTy) : Prop where
  plain : PlainPart U
  map : ∀ V, U ≠ .hashMap V
  decimal : U ≠ .numBigDecimal

theorem pointwise_one {α β : Type} {R : α → β → Prop} : (vs : List α) → (bs cs : List β) →
    (∀ v ∈ vs, ∀ b c, R v b → R v c → b = c) → Pointwise R vs bs → Pointwise R vs cs → bs = cs
  | [], [], [], _, _, _ => rfl
  | [], _ :: _, _, _, h, _ => h.elim
  | [], [], _ :: _, _, _, h => h.elim
  | _ :: _, [], _, _, h, _ => h.elim
  | _ :: _, _ :: _, [], _, _, h => h.elim
  | v :: vs, b :: bs, c :: cs, hR, h, k => by
    rw [hR v (by simp) b c h.1 k.1,
      pointwise_one vs bs cs (fun u hu => hR u (by simp [hu])) h.2 k.2]

mutual
theorem mirrors_one : (T : RTy) → (∀ U ∈ typeParts T, ShownPart U) → (v : Carrier T) →
    (b c : Body) → Mirrors T v b → Mirrors T v c → b = c
  | .unit, _, _, _, _, h, k => by simp_all [Mirrors]
  | .bool, _, _, _, _, h, k => by simp_all [Mirrors]
  | .u8, _, _, _, _, h, k => by simp_all [Mirrors]
  | .u16, _, _, _, _, h, k => by simp_all [Mirrors]
  | .u32, _, _, _, _, h, k => by simp_all [Mirrors]
  | .u64, _, _, _, _, h, k => by simp_all [Mirrors]
  | .i8, _, _, _, _, h, k => by simp_all [Mirrors]
  | .i16, _, _, _, _, h, k => by simp_all [Mirrors]
  | .i32, _, _, _, _, h, k => by simp_all [Mirrors]
  | .i64, _, _, _, _, h, k => by simp_all [Mirrors]
  | .f32, _, _, _, _, h, k => by simp_all [Mirrors]
  | .f64, _, _, _, _, h, k => by simp_all [Mirrors]
  | .bigUint, _, _, _, _, h, k => by simp_all [Mirrors]
  | .bigInt, _, _, _, _, h, k => by simp_all [Mirrors]
  | .bigDecimal, _, _, _, _, h, k => by simp only [Mirrors] at h k; rw [h, k]
  | .str, _, _, _, _, h, k => by simp_all [Mirrors]
  | .string, _, _, _, _, h, k => by simp_all [Mirrors]
  | .bytes, _, _, _, _, h, k => by simp_all [Mirrors]
  | .byteBuf, _, _, _, _, h, k => by simp_all [Mirrors]
  | .date, _, _, _, _, h, k => by simp_all [Mirrors]
  | .timeDate, _, _, _, _, h, k => by simp_all [Mirrors]
  | .dateTime, _, _, _, _, h, k => by simp_all [Mirrors]
  | .numBigUint, _, _, _, _, h, k => by
    rw [Mirrors] at h k
    obtain ⟨⟨x⟩, rfl, h⟩ := h
    obtain ⟨⟨y⟩, rfl, k⟩ := k
    have e : x = y := leValue_inj (Nat.le_antisymm (h.2 y k.1) (k.2 x h.1)) (h.1.trans k.1.symm)
    rw [e]
  | .numBigInt, _, _, _, _, h, k => by
    rw [Mirrors] at h k
    obtain ⟨⟨x⟩, rfl, h⟩ := h
    obtain ⟨⟨y⟩, rfl, k⟩ := k
    have e : x = y := signedValue_inj (Nat.le_antisymm (h.2 y k.1) (k.2 x h.1)) (h.1.trans k.1.symm)
    rw [e]
  | .numBigDecimal, hT, _, _, _, _, _ => ((hT _ (self_mem_typeParts _)).decimal rfl).elim
  | .offsetDateTime, _, _, _, _, h, k => by
    rw [Mirrors] at h k
    obtain ⟨⟨s, n⟩, rfl, h1, h2⟩ := h
    obtain ⟨⟨s', n'⟩, rfl, k1, k2⟩ := k
    have e1 : s = s' := Int64.toInt_inj.mp (h1.trans k1.symm)
    have e2 : n = n' := UInt32.toNat_inj.mp (h2.trans k2.symm)
    rw [e1, e2]
  | .option T, _, none, _, _, h, k => by simp_all [Mirrors]
  | .option T, hT, some v, _, _, h, k => by
    rw [Mirrors] at h k
    obtain ⟨x, rfl, h⟩ := h
    obtain ⟨y, rfl, k⟩ := k
    rw [mirrors_one T (fun U hU => hT U (by simp [typeParts, hU])) v x y h k]
  | .vec T, hT, vs, _, _, h, k => by
    rw [Mirrors] at h k
    obtain ⟨x, rfl, h⟩ := h
    obtain ⟨y, rfl, k⟩ := k
    rw [pointwise_one vs x y (fun v _ b c => mirrors_one T
      (fun U hU => hT U (by simp [typeParts, hU])) v b c) h k]
  | .btreeMap T, hT, vs, _, _, h, k => by
    rw [Mirrors] at h k
    obtain ⟨x, rfl, -, h⟩ := h
    obtain ⟨y, rfl, -, k⟩ := k
    rw [pointwise_one vs x y (fun v _ b c hb hc => Prod.ext (hb.1.symm.trans hc.1)
      (mirrors_one T (fun U hU => hT U (by simp [typeParts, hU])) v.2 b.2 c.2 hb.2 hc.2)) h k]
  | .hashMap T, hT, _, _, _, _, _ => ((hT _ (self_mem_typeParts _)).map T rfl).elim
  | .tuple Ts, hT, vs, _, _, h, k => by
    rw [Mirrors] at h k
    obtain ⟨x, rfl, h⟩ := h
    obtain ⟨y, rfl, k⟩ := k
    rw [mirrors_one_tuple Ts (fun U hU => hT U (by simp [typeParts, hU])) vs x y h k]
  | .struct _ (.named fs), hT, vs, _, _, h, k => by
    rw [Mirrors] at h k
    obtain ⟨x, rfl, h⟩ := h
    obtain ⟨y, rfl, k⟩ := k
    rw [mirrors_one_fields fs (fun U hU => hT U (by simp [typeParts, hU])) vs x y h k]
  | .struct _ (.unnamed fs), hT, vs, _, _, h, k => by
    rw [Mirrors] at h k
    obtain ⟨x, rfl, h⟩ := h
    obtain ⟨y, rfl, k⟩ := k
    rw [mirrors_one_fields fs (fun U hU => hT U (by simp [typeParts, hU])) vs x y h k]
  | .struct _ .unit, _, _, _, _, h, k => by rw [Mirrors] at h k; rw [h, k]
  | .enum _ vs, hT, v, b, c, h, k => by
    have hp := (hT _ (self_mem_typeParts _)).plain
    rw [Mirrors] at h k
    exact mirrors_one_variant 0 vs (fun v hv f hf => ((hp v hv).2 f hf).1)
      (fun U hU => hT U (by simp [typeParts, hU])) v b c h k
  | .foreign, _, _, _, _, h, _ => by rw [Mirrors] at h; exact h.elim
theorem mirrors_one_tuple : (Ts : List RTy) → (∀ U ∈ typePartsAll Ts, ShownPart U) →
    (v : TupleCarrier Ts) → (b c : List Body) → TupleMirrors Ts v b → TupleMirrors Ts v c → b = c
  | [], _, _, _, _, h, k => by rw [TupleMirrors] at h k; rw [h, k]
  | T :: Ts, hT, (v, vs), _, _, h, k => by
    rw [TupleMirrors] at h k
    obtain ⟨x, xs, rfl, h1, h2⟩ := h
    obtain ⟨y, ys, rfl, k1, k2⟩ := k
    rw [mirrors_one T (fun U hU => hT U (by simp [typePartsAll, hU])) v x y h1 k1,
      mirrors_one_tuple Ts (fun U hU => hT U (by simp [typePartsAll, hU])) vs xs ys h2 k2]
theorem mirrors_one_fields : (fs : List RField) → (∀ U ∈ typePartsFields fs, ShownPart U) →
    (v : FieldCarrier fs) → (b c : List Body) → FieldsMirror fs v b → FieldsMirror fs v c → b = c
  | [], _, _, _, _, h, k => by rw [FieldsMirror] at h k; rw [h, k]
  | .mk attrs _ T :: fs, hT, (v, vs), b, c, h, k => by
    rw [FieldsMirror] at h k
    by_cases hs : Skipped attrs
    · rw [if_pos hs] at h k
      exact mirrors_one_fields fs (fun U hU => hT U (by simp [typePartsFields, hU])) vs b c h k
    · rw [if_neg hs] at h k
      obtain ⟨x, xs, rfl, h1, h2⟩ := h
      obtain ⟨y, ys, rfl, k1, k2⟩ := k
      rw [mirrors_one T (fun U hU => hT U (by simp [typePartsFields, hs, hU])) v x y h1 k1,
        mirrors_one_fields fs (fun U hU => hT U (by simp [typePartsFields, hU])) vs xs ys h2 k2]
theorem mirrors_one_variant (i : Nat) : (vs : List RVariant) →
    (∀ v ∈ vs, ∀ f ∈ Spec.variantFields v, ¬ Skipped (fieldAttrs f)) →
    (∀ U ∈ typePartsVariants vs, ShownPart U) → (v : VariantsCarrier vs) → (b c : Body) →
    VariantMirrors i vs v b → VariantMirrors i vs v c → b = c
  | .mk _ _ (.named fs) :: _, hs, hT, .inl v, _, _, h, k => by
    rw [VariantMirrors] at h k
    obtain ⟨x, xs, rfl, h1, h2⟩ := h
    obtain ⟨y, ys, rfl, k1, k2⟩ := k
    have e : x = y := UInt32.toNat_inj.mp (h1.trans k1.symm)
    rw [e, mirrors_one_payload fs (fun f hf => hs _ List.mem_cons_self f hf)
      (fun U hU => hT U (by simp [typePartsVariants, hU])) v xs ys h2 k2]
  | .mk _ _ (.unnamed fs) :: _, hs, hT, .inl v, _, _, h, k => by
    rw [VariantMirrors] at h k
    obtain ⟨x, xs, rfl, h1, h2⟩ := h
    obtain ⟨y, ys, rfl, k1, k2⟩ := k
    have e : x = y := UInt32.toNat_inj.mp (h1.trans k1.symm)
    rw [e, mirrors_one_payload fs (fun f hf => hs _ List.mem_cons_self f hf)
      (fun U hU => hT U (by simp [typePartsVariants, hU])) v xs ys h2 k2]
  | .mk _ _ .unit :: _, hs, hT, .inl v, _, _, h, k => by
    rw [VariantMirrors] at h k
    obtain ⟨x, xs, rfl, h1, h2⟩ := h
    obtain ⟨y, ys, rfl, k1, k2⟩ := k
    have e : x = y := UInt32.toNat_inj.mp (h1.trans k1.symm)
    have e2 : xs = ys := h2.trans k2.symm
    rw [e, e2]
  | .mk _ _ fields :: vs, hs, hT, .inr v, b, c, h, k => by
    rw [VariantMirrors] at h k
    exact mirrors_one_variant (i + 1) vs (fun v hv => hs v (by simp [hv]))
      (fun U hU => hT U (by cases fields <;> simp [typePartsVariants, hU])) v b c h k
theorem mirrors_one_payload : (fs : List RField) → (∀ f ∈ fs, ¬ Skipped (fieldAttrs f)) →
    (∀ U ∈ typePartsFields fs, ShownPart U) → (v : FieldCarrier fs) → (b c : Body) →
    PayloadMirrors fs v b → PayloadMirrors fs v c → b = c
  | [], _, _, _, _, _, h, k => by rw [PayloadMirrors] at h k; rw [h, k]
  | [.mk attrs _ T], hs, hT, (v, _), b, c, h, k => by
    rw [PayloadMirrors] at h k
    have hn : ¬ Skipped attrs := hs _ List.mem_cons_self
    exact mirrors_one T (fun U hU => hT U (by simp [typePartsFields, hn, hU])) v b c h k
  | f :: g :: fs, _, hT, vs, _, _, h, k => by
    rw [PayloadMirrors] at h k
    obtain ⟨x, rfl, h⟩ := h
    obtain ⟨y, rfl, k⟩ := k
    rw [mirrors_one_fields (f :: g :: fs) hT vs x y h k]
end

end Dlhn.Derive
