import Verif.Spec.SerIf
import Verif.Proof.DeriveDe
import Verif.Proof.Visit
/-! # Facts about serializing fields conditionally -/
namespace Dlhn.Derive
open Spec hiding variantFields

theorem serdeTests_iff (attrs : List Attr) : serdeTests attrs = true ↔ Conditional attrs := by
  simp only [serdeTests, Conditional, HasSerdeItem, List.any_eq_true, Bool.and_eq_true, beq_iff_eq]
  constructor
  · rintro ⟨a, ha, hp, i, hi, rfl⟩; exact ⟨a, ha, hp, hi⟩
  · rintro ⟨a, ha, hp, hi⟩; exact ⟨a, ha, hp, _, hi, rfl⟩

theorem leftOut_iff (cond : Cond) (attrs : List Attr) (T : RTy) (v : Carrier T) :
    (serdeTests attrs && cond attrs T v) = true ↔ LeftOut cond attrs T v := by
  rw [Bool.and_eq_true, serdeTests_iff, LeftOut]

theorem serSeq_congr {α : Type} {f g : α → WProg SerErr} :
    (vs : List α) → (∀ v ∈ vs, f v = g v) → serSeq f vs = serSeq g vs
  | [], _ => rfl
  | v :: vs, h => by
    rw [serSeq, serSeq, h v (by simp), serSeq_congr vs fun w hw => h w (by simp [hw])]

theorem serMap_congr {α : Type} {f g : α → WProg SerErr} :
    (es : List (String × α)) → (∀ e ∈ es, f e.2 = g e.2) → serMap f es = serMap g es
  | [], _ => rfl
  | (k, v) :: es, h => by
    have := h (k, v) (by simp)
    simp only at this
    rw [serMap, serMap, this, serMap_congr es fun w hw => h w (by simp [hw])]

theorem serVariant_inl {mode : BuildMode} {name : String} {i : Nat} {attrs : List Attr}
    {vn : String} {vs : List RVariant} : (fields : RFields) → (v : FieldsCarrier fields) →
    serVariant mode name i (.mk attrs vn fields :: vs) (.inl v) =
      if serdeSkips attrs then
        .done (.err (.message ("the enum variant " ++ name ++ "::" ++ vn ++ " cannot be serialized")))
      else (Ser.serU32 (UInt32.ofNat i)).andThen (match fields, v with
        | .named fs, v => serFields mode fs v
        | .unnamed fs, v => serFields mode fs v
        | .unit, _ => .skip)
  | .named _, _ => by rw [serVariant]
  | .unnamed _, _ => by rw [serVariant]
  | .unit, _ => by rw [serVariant]

theorem andThen_skip : (p : WProg SerErr) → p.andThen .skip = p
  | .done (.ok ()) => rfl
  | .done (.err _) => rfl
  | .done (.panic _) => rfl
  | .writeAll bs f k => by rw [WProg.andThen, andThen_skip k]

mutual
theorem serIf_kept (cond : Cond) (mode : BuildMode) : (T : RTy) → (v : Carrier T) →
    AllKept cond T v → serIf cond mode T v = ser mode T v
  | .option _, none, _ => by rw [serIf, ser]
  | .option T, some v, h => by
    rw [AllKept] at h
    rw [serIf, ser, serIf_kept cond mode T v h]
  | .vec T, vs, h => by
    rw [AllKept] at h
    rw [serIf, ser, serSeq_congr vs fun v hv => serIf_kept cond mode T v (h v hv)]
  | .btreeMap T, es, h => by
    rw [AllKept] at h
    rw [serIf, ser, serMap_congr es fun e he => serIf_kept cond mode T e.2 (h e he)]
  | .hashMap T, es, h => by
    rw [AllKept] at h
    rw [serIf, ser, serMap_congr es fun e he => serIf_kept cond mode T e.2 (h e he)]
  | .tuple Ts, vs, h => by
    rw [AllKept] at h
    rw [serIf, ser]; exact serTupleIf_kept cond mode Ts vs h
  | .struct _ (.named fs), vs, h => by
    rw [AllKept] at h
    rw [serIf, ser]; exact serFieldsIf_kept cond mode fs vs h
  | .struct _ (.unnamed []), _, _ => by rw [serIf, ser]
  | .struct _ (.unnamed [.mk _ _ T]), (v, ()), h => by
    rw [AllKept] at h
    rw [serIf, ser]; exact serIf_kept cond mode T v h
  | .struct _ (.unnamed (f :: g :: fs)), vs, h => by
    rw [AllKept] at h
    rw [serIf, ser]; exact serFieldsIf_kept cond mode (f :: g :: fs) vs h
  | .struct _ .unit, _, _ => by rw [serIf, ser]
  | .enum name vs, v, h => by
    rw [AllKept] at h
    rw [serIf, ser]; exact serVariantIf_kept cond mode name 0 vs v h
  | .unit, _, _ => by rw [serIf] <;> simp
  | .bool, _, _ => by rw [serIf] <;> simp
  | .u8, _, _ => by rw [serIf] <;> simp
  | .u16, _, _ => by rw [serIf] <;> simp
  | .u32, _, _ => by rw [serIf] <;> simp
  | .u64, _, _ => by rw [serIf] <;> simp
  | .i8, _, _ => by rw [serIf] <;> simp
  | .i16, _, _ => by rw [serIf] <;> simp
  | .i32, _, _ => by rw [serIf] <;> simp
  | .i64, _, _ => by rw [serIf] <;> simp
  | .f32, _, _ => by rw [serIf] <;> simp
  | .f64, _, _ => by rw [serIf] <;> simp
  | .bigUint, _, _ => by rw [serIf] <;> simp
  | .numBigUint, _, _ => by rw [serIf] <;> simp
  | .bigInt, _, _ => by rw [serIf] <;> simp
  | .numBigInt, _, _ => by rw [serIf] <;> simp
  | .bigDecimal, _, _ => by rw [serIf] <;> simp
  | .numBigDecimal, _, _ => by rw [serIf] <;> simp
  | .str, _, _ => by rw [serIf] <;> simp
  | .string, _, _ => by rw [serIf] <;> simp
  | .bytes, _, _ => by rw [serIf] <;> simp
  | .byteBuf, _, _ => by rw [serIf] <;> simp
  | .date, _, _ => by rw [serIf] <;> simp
  | .timeDate, _, _ => by rw [serIf] <;> simp
  | .dateTime, _, _ => by rw [serIf] <;> simp
  | .offsetDateTime, _, _ => by rw [serIf] <;> simp
  | .union _, v, _ => nomatch v
  | .foreign, _, _ => by rw [serIf] <;> simp
theorem serTupleIf_kept (cond : Cond) (mode : BuildMode) : (Ts : List RTy) →
    (vs : TupleCarrier Ts) → TupleKept cond Ts vs → serTupleIf cond mode Ts vs = serTuple mode Ts vs
  | [], _, _ => by rw [serTupleIf, serTuple]
  | T :: Ts, (v, vs), h => by
    rw [TupleKept] at h
    rw [serTupleIf, serTuple, serIf_kept cond mode T v h.1, serTupleIf_kept cond mode Ts vs h.2]
theorem serFieldsIf_kept (cond : Cond) (mode : BuildMode) : (fs : List RField) →
    (vs : FieldCarrier fs) → FieldsKept cond fs vs →
    serFieldsIf cond mode fs vs = serFields mode fs vs
  | [], _, _ => by rw [serFieldsIf, serFields]
  | .mk attrs _ T :: fs, (v, vs), h => by
    rw [FieldsKept] at h
    rw [serFieldsIf, serFields, serFieldsIf_kept cond mode fs vs h.2]
    by_cases hs : Skipped attrs
    · rw [if_pos ((serdeSkips_iff attrs).mpr hs), if_pos ((serdeSkips_iff attrs).mpr hs)]
    · have hs' : ¬ serdeSkips attrs = true := by rw [serdeSkips_iff]; exact hs
      obtain ⟨h1, h2⟩ := h.1.resolve_left hs
      rw [if_neg hs', if_neg hs', if_neg (by rw [leftOut_iff]; exact h1),
        serIf_kept cond mode T v h2]
theorem serVariantIf_kept (cond : Cond) (mode : BuildMode) (name : String) (i : Nat) :
    (vs : List RVariant) → (v : VariantsCarrier vs) → VariantKept cond vs v →
    serVariantIf cond mode name i vs v = serVariant mode name i vs v
  | .mk attrs vn (.named fs) :: _, .inl v, h => by
    rw [VariantKept] at h
    rw [serVariantIf, serVariant_inl]
    simp only [serFieldsIf_kept cond mode fs v h]
  | .mk attrs vn (.unnamed []) :: _, .inl v, h => by
    rw [serVariantIf, serVariant_inl]
    simp only [serFields]
  | .mk attrs vn (.unnamed [.mk a n T]) :: _, .inl (v, ()), h => by
    rw [VariantKept] at h
    rw [serVariantIf, serVariant_inl]
    simp only [serFields]
    by_cases hs : Skipped a
    · rw [if_pos ((serdeSkips_iff a).mpr hs)]
      simp only [if_pos ((serdeSkips_iff a).mpr hs)]
    · have hs' : ¬ serdeSkips a = true := by rw [serdeSkips_iff]; exact hs
      simp only [if_neg hs', serIf_kept cond mode T v (h.resolve_left hs), andThen_skip]
  | .mk attrs vn (.unnamed (f :: g :: fs)) :: _, .inl v, h => by
    rw [VariantKept] at h
    rw [serVariantIf, serVariant_inl]
    simp only [serFieldsIf_kept cond mode (f :: g :: fs) v h]
  | .mk attrs vn .unit :: _, .inl v, h => by
    rw [serVariantIf, serVariant_inl]
  | .mk _ _ _ :: vs, .inr v, h => by
    rw [VariantKept] at h
    rw [serVariantIf, serVariant]
    exact serVariantIf_kept cond mode name (i + 1) vs v h
end

/-! ## Types whose fields are never left out -/

theorem describesAll_of_payload {Ts : List RTy} {h : Header} (hd : DescribesPayload Ts h) :
    ∃ hs, DescribesAll Ts hs := by
  cases hd with
  | none => exact ⟨[], .nil⟩
  | one T h hd => exact ⟨[h], .cons _ _ _ _ hd .nil⟩
  | many _ hs _ hd => exact ⟨hs, hd⟩

theorem andThen_assoc : (p q r : WProg SerErr) →
    (p.andThen q).andThen r = p.andThen (q.andThen r)
  | .done (.ok ()), _, _ => rfl
  | .done (.err _), _, _ => rfl
  | .done (.panic _), _, _ => rfl
  | .writeAll bs f k, q, r => by
    rw [WProg.andThen, WProg.andThen, WProg.andThen, andThen_assoc k q r]

theorem bind_pure_id {α : Type} : (p : Prog DeErr α) → Prog.bind p (fun a => Pure.pure a) = p
  | .done (.ok _) => rfl
  | .done (.err _) => rfl
  | .done (.panic _) => rfl
  | .readExact n f k => by
    rw [Prog.bind]; exact congrArg _ (funext fun _ => bind_pure_id _)
  | .takeToEnd n f k => by
    rw [Prog.bind]; exact congrArg _ (funext fun _ => bind_pure_id _)
  | .alloc n k => by rw [Prog.bind, bind_pure_id k]

mutual
theorem kept_of_plain (cond : Cond) : (T : RTy) → (h : Header) → Describes T h →
    (∀ U ∈ typeParts T, PlainPart U) → (v : Carrier T) → AllKept cond T v
  | .option T, _, .option _ h hd, hp, v => by
    cases v with
    | none => rw [AllKept]; trivial
    | some v =>
      rw [AllKept]
      exact kept_of_plain cond T h hd (fun U hU => hp U (by simp [typeParts, hU])) v
  | .vec T, _, .vec _ h hd, hp, vs => by
    rw [AllKept]
    exact fun v _ => kept_of_plain cond T h hd (fun U hU => hp U (by simp [typeParts, hU])) v
  | .btreeMap T, _, .btreeMap _ h hd, hp, es => by
    rw [AllKept]
    exact fun e _ => kept_of_plain cond T h hd (fun U hU => hp U (by simp [typeParts, hU])) e.2
  | .hashMap T, _, .hashMap _ h hd, hp, es => by
    rw [AllKept]
    exact fun e _ => kept_of_plain cond T h hd (fun U hU => hp U (by simp [typeParts, hU])) e.2
  | .tuple Ts, _, .tuple _ hs _ _ hd, hp, vs => by
    rw [AllKept]
    exact tuple_of_plain cond Ts hs hd (fun U hU => hp U (by simp [typeParts, hU])) vs
  | .struct name (.named fs), _, .struct _ _ hs hc hd, hp, vs => by
    rw [AllKept]
    exact fields_of_plain cond fs hs hd hc (fun U hU => hp U (by simp [typeParts, hU])) vs
  | .struct name (.unnamed []), _, _, _, _ => by simp [AllKept]
  | .struct name (.unnamed [.mk a n T]), _, .struct _ _ hs hc hd, hp, (v, ()) => by
    have hns : ¬ Skipped a := hp _ (self_mem_typeParts _)
    have := fields_of_plain cond [.mk a n T] hs hd hc
      (fun U hU => hp U (by simp [typeParts, hU])) (v, ())
    rw [FieldsKept] at this
    rw [AllKept]
    exact (this.1.resolve_left hns).2
  | .struct name (.unnamed (f :: g :: fs)), _, .struct _ _ hs hc hd, hp, vs => by
    rw [AllKept]
    exact fields_of_plain cond (f :: g :: fs) hs hd hc
      (fun U hU => hp U (by simp [typeParts, hU])) vs
  | .struct name .unit, _, _, _, _ => by simp [AllKept]
  | .enum name vs, _, .enum _ _ hs _ hd, hp, v => by
    rw [AllKept]
    have hself : ∀ w ∈ vs, ¬ Skipped (variantAttrs w) ∧ ∀ f ∈ Spec.variantFields w,
      ¬ Skipped (fieldAttrs f) ∧ ¬ Conditional (fieldAttrs f) := hp _ (self_mem_typeParts _)
    rw [List.filter_eq_self.mpr fun w hw => decide_eq_true (hself w hw).1] at hd
    exact variant_of_plain cond vs hs hd hself
      (fun U hU => hp U (by simp [typeParts, hU])) v
  | .unit, _, _, _, _ => by simp [AllKept]
  | .bool, _, _, _, _ => by simp [AllKept]
  | .u8, _, _, _, _ => by simp [AllKept]
  | .u16, _, _, _, _ => by simp [AllKept]
  | .u32, _, _, _, _ => by simp [AllKept]
  | .u64, _, _, _, _ => by simp [AllKept]
  | .i8, _, _, _, _ => by simp [AllKept]
  | .i16, _, _, _, _ => by simp [AllKept]
  | .i32, _, _, _, _ => by simp [AllKept]
  | .i64, _, _, _, _ => by simp [AllKept]
  | .f32, _, _, _, _ => by simp [AllKept]
  | .f64, _, _, _, _ => by simp [AllKept]
  | .bigUint, _, _, _, _ => by simp [AllKept]
  | .numBigUint, _, _, _, _ => by simp [AllKept]
  | .bigInt, _, _, _, _ => by simp [AllKept]
  | .numBigInt, _, _, _, _ => by simp [AllKept]
  | .bigDecimal, _, _, _, _ => by simp [AllKept]
  | .numBigDecimal, _, _, _, _ => by simp [AllKept]
  | .str, _, _, _, _ => by simp [AllKept]
  | .string, _, _, _, _ => by simp [AllKept]
  | .bytes, _, _, _, _ => by simp [AllKept]
  | .byteBuf, _, _, _, _ => by simp [AllKept]
  | .date, _, _, _, _ => by simp [AllKept]
  | .timeDate, _, _, _, _ => by simp [AllKept]
  | .dateTime, _, _, _, _ => by simp [AllKept]
  | .offsetDateTime, _, _, _, _ => by simp [AllKept]
  | .union _, _, _, _, v => nomatch v
  | .foreign, _, _, _, _ => by simp [AllKept]
theorem tuple_of_plain (cond : Cond) : (Ts : List RTy) → (hs : List Header) → DescribesAll Ts hs →
    (∀ U ∈ typePartsAll Ts, PlainPart U) → (vs : TupleCarrier Ts) → TupleKept cond Ts vs
  | [], _, _, _, _ => by rw [TupleKept]; trivial
  | T :: Ts, _, .cons _ _ h hs hd hds, hp, (v, vs) => by
    rw [TupleKept]
    exact ⟨kept_of_plain cond T h hd (fun U hU => hp U (by simp [typePartsAll, hU])) v,
      tuple_of_plain cond Ts hs hds (fun U hU => hp U (by simp [typePartsAll, hU])) vs⟩
theorem fields_of_plain (cond : Cond) : (fs : List RField) → (hs : List Header) →
    DescribesAll (serializedTypes fs) hs → (∀ f ∈ fs, ¬ Conditional (fieldAttrs f)) →
    (∀ U ∈ typePartsFields fs, PlainPart U) → (vs : FieldCarrier fs) → FieldsKept cond fs vs
  | [], _, _, _, _, _ => by rw [FieldsKept]; trivial
  | .mk a n T :: fs, hs, hd, hc, hp, (v, vs) => by
    rw [FieldsKept]
    have hp' : ∀ U ∈ typePartsFields fs, PlainPart U := fun U hU =>
      hp U (by simp [typePartsFields, hU])
    by_cases hs' : Skipped a
    · have : serializedTypes (.mk a n T :: fs) = serializedTypes fs := by
        simp [serializedTypes, fieldAttrs, hs']
      rw [this] at hd
      exact ⟨.inl hs', fields_of_plain cond fs hs hd (fun f hf => hc f (by simp [hf])) hp' vs⟩
    · have : serializedTypes (.mk a n T :: fs) = T :: serializedTypes fs := by
        simp [serializedTypes, fieldAttrs, hs', fieldType]
      rw [this] at hd
      cases hd with
      | cons _ _ h hs hd hds =>
        exact ⟨.inr ⟨fun hl => hc _ List.mem_cons_self hl.1, kept_of_plain cond T h hd
          (fun U hU => hp U (by simp [typePartsFields, hs', hU])) v⟩,
          fields_of_plain cond fs hs hds (fun f hf => hc f (by simp [hf])) hp' vs⟩
theorem payload_of_plain (cond : Cond) : (fs : List RField) → (hs : List Header) →
    DescribesAll (fs.map fieldType) hs →
    (∀ f ∈ fs, ¬ Skipped (fieldAttrs f) ∧ ¬ Conditional (fieldAttrs f)) →
    (∀ U ∈ typePartsFields fs, PlainPart U) → (vs : FieldCarrier fs) → FieldsKept cond fs vs
  | [], _, _, _, _, _ => by rw [FieldsKept]; trivial
  | .mk a n T :: fs, _, .cons _ _ h hs hd hds, hc, hp, (v, vs) => by
    rw [FieldsKept]
    have hc' : ¬ Skipped a ∧ ¬ Conditional a := hc _ List.mem_cons_self
    exact ⟨.inr ⟨fun hl => hc'.2 hl.1, kept_of_plain cond T h hd
      (fun U hU => hp U (by simp [typePartsFields, hc'.1, hU])) v⟩,
      payload_of_plain cond fs hs hds (fun f hf => hc f (by simp [hf]))
        (fun U hU => hp U (by simp [typePartsFields, hU])) vs⟩
theorem variant_of_plain (cond : Cond) : (ws : List RVariant) → (hs : List Header) →
    DescribesPayloads (ws.map fun v => (Spec.variantFields v).map fieldType) hs →
    (∀ w ∈ ws, ¬ Skipped (variantAttrs w) ∧ ∀ f ∈ Spec.variantFields w,
      ¬ Skipped (fieldAttrs f) ∧ ¬ Conditional (fieldAttrs f)) →
    (∀ U ∈ typePartsVariants ws, PlainPart U) → (v : VariantsCarrier ws) → VariantKept cond ws v
  | .mk a n (.named fs) :: ws, _, .cons _ _ h hs hd hds, hc, hp, .inl v => by
    rw [VariantKept]
    obtain ⟨hs', hd'⟩ := describesAll_of_payload hd
    exact payload_of_plain cond fs hs' hd' (hc _ List.mem_cons_self).2
      (fun U hU => hp U (by simp [typePartsVariants, hU])) v
  | .mk a n (.unnamed []) :: ws, _, _, _, _, .inl v => by rw [VariantKept]; trivial
  | .mk a n (.unnamed [.mk b m T]) :: ws, _, .cons _ _ h hs hd hds, hc, hp, .inl (v, ()) => by
    rw [VariantKept]
    obtain ⟨hs', hd'⟩ := describesAll_of_payload hd
    have hc' : ¬ Skipped b ∧ ¬ Conditional b := (hc _ List.mem_cons_self).2 _ List.mem_cons_self
    have := payload_of_plain cond [.mk b m T] hs' hd' (hc _ List.mem_cons_self).2
      (fun U hU => hp U (by simp [typePartsVariants, hU])) (v, ())
    rw [FieldsKept] at this
    exact .inr (this.1.resolve_left hc'.1).2
  | .mk a n (.unnamed (f :: g :: fs)) :: ws, _, .cons _ _ h hs hd hds, hc, hp, .inl v => by
    rw [VariantKept]
    obtain ⟨hs', hd'⟩ := describesAll_of_payload hd
    exact payload_of_plain cond (f :: g :: fs) hs' hd' (hc _ List.mem_cons_self).2
      (fun U hU => hp U (by simp [typePartsVariants, hU])) v
  | .mk a n .unit :: ws, _, _, _, _, .inl v => by rw [VariantKept]; trivial
  | .mk a n fields :: ws, _, .cons _ _ h hs hd hds, hc, hp, .inr v => by
    rw [VariantKept]
    exact variant_of_plain cond ws hs hds (fun w hw => hc w (by simp [hw]))
      (fun U hU => hp U (by cases fields <;> simp [typePartsVariants, hU])) v
end

/-! ## Leaving out one field -/

theorem serFieldsIf_together (cond : Cond) (mode : BuildMode) : (pre : List RField) →
    {post : List RField} → (us : FieldCarrier pre) → (ws : FieldCarrier post) →
    serFieldsIf cond mode (pre ++ post) (together pre us ws) =
      (serFieldsIf cond mode pre us).andThen (serFieldsIf cond mode post ws)
  | [], _, _, ws => by rw [serFieldsIf]; rfl
  | .mk a n T :: pre, post, (u, us), ws => by
    show serFieldsIf cond mode (.mk a n T :: (pre ++ post)) (u, together pre us ws) = _
    rw [serFieldsIf, serFieldsIf, serFieldsIf_together cond mode pre us ws]
    split
    · rfl
    · split
      · rfl
      · rw [andThen_assoc]

theorem serVariantIf_after (cond : Cond) (mode : BuildMode) (name : String) :
    (before : List RVariant) → {w : RVariant} → {after : List RVariant} → (i : Nat) →
    (v : VariantsCarrier (w :: after)) →
    serVariantIf cond mode name i (before ++ w :: after) (afterVariants before v) =
      serVariantIf cond mode name (i + before.length) (w :: after) v
  | [], _, _, i, v => rfl
  | .mk a n fields :: before, w, after, i, v => by
    show serVariantIf cond mode name i (.mk a n fields :: (before ++ w :: after))
      (.inr (afterVariants before v)) = _
    rw [serVariantIf, serVariantIf_after cond mode name before (i + 1) v, List.length_cons]
    congr 1
    omega

theorem deFields_together (t : Target) (mode : BuildMode) (env : Env) : (pre : List RField) →
    (post : List RField) → deFields t mode env (pre ++ post) =
      (do let us ← deFields t mode env pre
          let ws ← deFields t mode env post
          pure (together pre us ws))
  | [], post => by
    show deFields t mode env post = _
    rw [deFields]
    exact (bind_pure_id _).symm
  | .mk a n T :: pre, post => by
    show deFields t mode env (.mk a n T :: (pre ++ post)) = _
    rw [deFields, deFields, deFields_together t mode env pre post]
    simp only [Prog.bind_eq]
    split
    · cases env.dflt a T with
      | none => rfl
      | some v => simp only [Prog.bind_assoc]; rfl
    · simp only [Prog.bind_assoc]; rfl

theorem deVariant_after (t : Target) (mode : BuildMode) (env : Env) {idx : Nat} : (before : List RVariant) →
    (∀ v ∈ before, ¬ SkippedDe (variantAttrs v)) → (w : RVariant) → (after : List RVariant) →
    deVariant t mode env idx before.length (before ++ w :: after) =
      (do let v ← deVariant t mode env idx 0 (w :: after)
          pure (afterVariants before v))
  | [], _, w, after => (bind_pure_id _).symm
  | .mk a n fields :: before, h, w, after => by
    show deVariant t mode env idx (before.length + 1) (.mk a n fields :: (before ++ w :: after)) = _
    have ha : ¬ SkippedDe a := h _ List.mem_cons_self
    rw [deVariant_succ t mode env _ ha,
      deVariant_after t mode env before (fun v hv => h v (by simp [hv])) w after]
    simp only [Prog.bind_eq, Prog.bind_assoc]
    rfl

/-! ## The bytes -/

/-- The program succeeds and writes these bytes. -/
def Puts (p : WProg SerErr) (bs : List UInt8) : Prop := p.exec = (bs, .ok ())

theorem puts_andThen {p q : WProg SerErr} {bs : List UInt8} :
    Puts (p.andThen q) bs ↔ ∃ b c, Puts p b ∧ Puts q c ∧ bs = b ++ c := by
  unfold Puts
  induction p generalizing bs with
  | done o =>
    rcases o with ⟨⟨⟩⟩ | e | k
    · rw [WProg.andThen]
      constructor
      · intro h; exact ⟨[], bs, rfl, h, rfl⟩
      · rintro ⟨b, c, h1, h2, rfl⟩
        have : [] = b := congrArg Prod.fst h1
        subst this; exact h2
    · simp [WProg.andThen, WProg.exec]
    · simp [WProg.andThen, WProg.exec]
  | writeAll w f k ih =>
    rw [WProg.andThen, WProg.exec, WProg.exec]
    simp only [Prod.mk.injEq]
    constructor
    · rintro ⟨h1, h2⟩
      obtain ⟨b, c, g1, g2, g3⟩ := ih.mp (Prod.ext rfl h2)
      refine ⟨w ++ b, c, ⟨by rw [g1], by rw [g1]⟩, g2, ?_⟩
      rw [← h1, List.append_assoc]
      exact congrArg (w ++ ·) g3
    · rintro ⟨b, c, ⟨rfl, h2⟩, h3, rfl⟩
      have := ih.mpr ⟨_, c, Prod.ext rfl h2, h3, rfl⟩
      rw [this]
      exact ⟨by rw [List.append_assoc], rfl⟩

theorem puts_unique {p : WProg SerErr} {b c : List UInt8} (h : Puts p b) : Puts p c ↔ c = b := by
  rw [Puts, h]
  simp [eq_comm]

theorem puts_first {p q : WProg SerErr} {b bs : List UInt8} (h : Puts p b) :
    Puts (p.andThen q) bs ↔ ∃ c, Puts q c ∧ bs = b ++ c := by
  rw [puts_andThen]
  constructor
  · rintro ⟨b', c, h1, h2, rfl⟩
    rw [(puts_unique h).mp h1]
    exact ⟨c, h2, rfl⟩
  · rintro ⟨c, h2, rfl⟩; exact ⟨b, c, h, h2, rfl⟩

theorem puts_skip {bs : List UInt8} : Puts .skip bs ↔ bs = [] := puts_unique rfl

theorem puts_len (n : Nat) : Puts (Ser.serLen n) (lengthBytes n) := by
  rw [Puts, Ser.serLen, Ser.exec_serU64, UInt64.toNat_ofNat']
  rfl

theorem puts_str (s : String) : Puts (Ser.serStr s) (lengthBytes (utf8 s).length ++ utf8 s) :=
  (puts_first (puts_len _)).mpr ⟨_, Ser.exec_emit _, rfl⟩

theorem puts_index (i : Nat) : Puts (Ser.serU32 (UInt32.ofNat i)) (varint 32 (i % 2 ^ 32)) := by
  rw [Puts, Ser.exec_serU32, UInt32.toNat_ofNat']

theorem puts_seq {α : Type} {f : α → WProg SerErr} {W : α → List UInt8 → Prop} :
    (vs : List α) → (∀ v b, Puts (f v) b ↔ W v b) → (bs : List UInt8) →
    (Puts (serSeq f vs) bs ↔ EachWritten W vs bs)
  | [], _, _ => puts_skip
  | v :: vs, h, bs => by
    rw [serSeq, puts_andThen, EachWritten]
    simp only [h, puts_seq vs h]

theorem puts_map {α : Type} {f : α → WProg SerErr} {W : α → List UInt8 → Prop} :
    (es : List (String × α)) → (∀ v b, Puts (f v) b ↔ W v b) → (bs : List UInt8) →
    (Puts (serMap f es) bs ↔ EachWritten (fun e c =>
      ∃ d, W e.2 d ∧ c = lengthBytes (utf8 e.1).length ++ utf8 e.1 ++ d) es bs)
  | [], _, _ => puts_skip
  | (k, v) :: es, h, bs => by
    rw [serMap, puts_first (puts_str k), EachWritten]
    simp only [puts_andThen, h, puts_map es h]
    constructor
    · rintro ⟨_, ⟨b, c, h1, h2, rfl⟩, rfl⟩
      exact ⟨_, c, ⟨b, h1, rfl⟩, h2, by simp⟩
    · rintro ⟨_, c, ⟨b, h1, rfl⟩, h2, rfl⟩
      exact ⟨_, ⟨b, c, h1, h2, rfl⟩, by simp⟩

theorem puts_variant (attrs : List Attr) {p : WProg SerErr} {e : SerErr} {bs : List UInt8}
    {P : Prop} (h : Puts p bs ↔ P) :
    Puts (if serdeSkips attrs then .done (.err e) else p) bs ↔ ¬ Skipped attrs ∧ P := by
  by_cases hs : Skipped attrs
  · rw [if_pos ((serdeSkips_iff attrs).mpr hs)]
    simp [Puts, WProg.exec, hs]
  · rw [if_neg (by rw [serdeSkips_iff]; exact hs), h]
    simp [hs]

mutual
theorem puts_serIf (cond : Cond) (mode : BuildMode) : (T : RTy) → (v : Carrier T) →
    (bs : List UInt8) → (Puts (serIf cond mode T v) bs ↔ WrittenIf cond mode T v bs)
  | .option _, none, bs => by rw [serIf, WrittenIf]; exact puts_unique rfl
  | .option T, some v, bs => by
    rw [serIf, WrittenIf, puts_first (b := [1]) (Ser.exec_emit _)]
    simp only [puts_serIf cond mode T v, List.singleton_append]
  | .vec T, vs, bs => by
    rw [serIf, WrittenIf, Ser.serHint, puts_first (puts_len _)]
    simp only [puts_seq vs (puts_serIf cond mode T)]
  | .btreeMap T, es, bs => by
    rw [serIf, WrittenIf, Ser.serHint, puts_first (puts_len _)]
    simp only [puts_map es (puts_serIf cond mode T)]
  | .hashMap T, es, bs => by
    rw [serIf, WrittenIf, Ser.serHint, puts_first (puts_len _)]
    simp only [puts_map es (puts_serIf cond mode T)]
  | .tuple Ts, vs, bs => by rw [serIf, WrittenIf]; exact puts_serTupleIf cond mode Ts vs bs
  | .struct _ (.named fs), vs, bs => by
    rw [serIf, WrittenIf]; exact puts_serFieldsIf cond mode fs vs bs
  | .struct _ (.unnamed []), _, bs => by rw [serIf, WrittenIf]; exact puts_skip
  | .struct _ (.unnamed [.mk _ _ T]), (v, ()), bs => by
    rw [serIf, WrittenIf]; exact puts_serIf cond mode T v bs
  | .struct _ (.unnamed (f :: g :: fs)), vs, bs => by
    rw [serIf, WrittenIf]; exact puts_serFieldsIf cond mode (f :: g :: fs) vs bs
  | .struct _ .unit, _, bs => by rw [serIf, WrittenIf]; exact puts_skip
  | .enum name vs, v, bs => by
    rw [serIf, WrittenIf]; exact puts_serVariantIf cond mode name 0 vs v bs
  | .unit, _, _ => by rw [serIf, WrittenIf, Puts] <;> simp
  | .bool, _, _ => by rw [serIf, WrittenIf, Puts] <;> simp
  | .u8, _, _ => by rw [serIf, WrittenIf, Puts] <;> simp
  | .u16, _, _ => by rw [serIf, WrittenIf, Puts] <;> simp
  | .u32, _, _ => by rw [serIf, WrittenIf, Puts] <;> simp
  | .u64, _, _ => by rw [serIf, WrittenIf, Puts] <;> simp
  | .i8, _, _ => by rw [serIf, WrittenIf, Puts] <;> simp
  | .i16, _, _ => by rw [serIf, WrittenIf, Puts] <;> simp
  | .i32, _, _ => by rw [serIf, WrittenIf, Puts] <;> simp
  | .i64, _, _ => by rw [serIf, WrittenIf, Puts] <;> simp
  | .f32, _, _ => by rw [serIf, WrittenIf, Puts] <;> simp
  | .f64, _, _ => by rw [serIf, WrittenIf, Puts] <;> simp
  | .bigUint, _, _ => by rw [serIf, WrittenIf, Puts] <;> simp
  | .numBigUint, _, _ => by rw [serIf, WrittenIf, Puts] <;> simp
  | .bigInt, _, _ => by rw [serIf, WrittenIf, Puts] <;> simp
  | .numBigInt, _, _ => by rw [serIf, WrittenIf, Puts] <;> simp
  | .bigDecimal, _, _ => by rw [serIf, WrittenIf, Puts] <;> simp
  | .numBigDecimal, _, _ => by rw [serIf, WrittenIf, Puts] <;> simp
  | .str, _, _ => by rw [serIf, WrittenIf, Puts] <;> simp
  | .string, _, _ => by rw [serIf, WrittenIf, Puts] <;> simp
  | .bytes, _, _ => by rw [serIf, WrittenIf, Puts] <;> simp
  | .byteBuf, _, _ => by rw [serIf, WrittenIf, Puts] <;> simp
  | .date, _, _ => by rw [serIf, WrittenIf, Puts] <;> simp
  | .timeDate, _, _ => by rw [serIf, WrittenIf, Puts] <;> simp
  | .dateTime, _, _ => by rw [serIf, WrittenIf, Puts] <;> simp
  | .offsetDateTime, _, _ => by rw [serIf, WrittenIf, Puts] <;> simp
  | .foreign, _, _ => by rw [serIf, WrittenIf, Puts] <;> simp
  | .union _, v, _ => nomatch v
theorem puts_serTupleIf (cond : Cond) (mode : BuildMode) : (Ts : List RTy) →
    (vs : TupleCarrier Ts) → (bs : List UInt8) →
    (Puts (serTupleIf cond mode Ts vs) bs ↔ MembersWritten cond mode Ts vs bs)
  | [], _, _ => by rw [serTupleIf, MembersWritten]; exact puts_skip
  | T :: Ts, (v, vs), bs => by
    rw [serTupleIf, MembersWritten, puts_andThen]
    simp only [puts_serIf cond mode T v, puts_serTupleIf cond mode Ts vs]
theorem puts_serFieldsIf (cond : Cond) (mode : BuildMode) : (fs : List RField) →
    (vs : FieldCarrier fs) → (bs : List UInt8) →
    (Puts (serFieldsIf cond mode fs vs) bs ↔ FieldsWritten cond mode fs vs bs)
  | [], _, _ => by rw [serFieldsIf, FieldsWritten]; exact puts_skip
  | .mk attrs _ T :: fs, (v, vs), bs => by
    rw [serFieldsIf, FieldsWritten]
    by_cases hs : Skipped attrs
    · rw [if_pos ((serdeSkips_iff attrs).mpr hs), puts_serFieldsIf cond mode fs vs]
      simp [hs]
    · have hs' : ¬ serdeSkips attrs = true := by rw [serdeSkips_iff]; exact hs
      rw [if_neg hs']
      by_cases hl : LeftOut cond attrs T v
      · rw [if_pos ((leftOut_iff cond attrs T v).mpr hl), puts_serFieldsIf cond mode fs vs]
        simp [hl]
      · rw [if_neg (by rw [leftOut_iff]; exact hl), puts_andThen]
        simp only [puts_serIf cond mode T v, puts_serFieldsIf cond mode fs vs]
        simp [hl, hs]
theorem puts_serVariantIf (cond : Cond) (mode : BuildMode) (name : String) (i : Nat) :
    (vs : List RVariant) → (v : VariantsCarrier vs) → (bs : List UInt8) →
    (Puts (serVariantIf cond mode name i vs v) bs ↔ VariantWritten cond mode i vs v bs)
  | .mk attrs vn (.named fs) :: _, .inl v, bs => by
    rw [serVariantIf, VariantWritten]
    refine puts_variant attrs ?_
    rw [puts_first (puts_index i)]
    simp only [puts_serFieldsIf cond mode fs v]
  | .mk attrs vn (.unnamed []) :: _, .inl v, bs => by
    rw [serVariantIf, VariantWritten]
    refine puts_variant attrs ?_
    rw [puts_first (puts_index i)]
    simp [puts_skip]
  | .mk attrs vn (.unnamed [.mk a n T]) :: _, .inl (v, ()), bs => by
    rw [serVariantIf, VariantWritten]
    refine puts_variant attrs ?_
    rw [puts_first (puts_index i)]
    by_cases hs : Skipped a
    · simp only [if_pos ((serdeSkips_iff a).mpr hs), puts_skip, hs, true_and, not_true_eq_false,
        false_and, or_false]
    · have hs' : ¬ serdeSkips a = true := by rw [serdeSkips_iff]; exact hs
      simp only [if_neg hs', puts_serIf cond mode T v, hs, false_and, not_false_eq_true, true_and,
        false_or]
  | .mk attrs vn (.unnamed (f :: g :: fs)) :: _, .inl v, bs => by
    rw [serVariantIf, VariantWritten]
    refine puts_variant attrs ?_
    rw [puts_first (puts_index i)]
    simp only [puts_serFieldsIf cond mode (f :: g :: fs) v]
  | .mk attrs vn .unit :: _, .inl v, bs => by
    rw [serVariantIf, VariantWritten]
    refine puts_variant attrs ?_
    rw [puts_first (puts_index i)]
    simp [puts_skip]
  | .mk _ _ _ :: vs, .inr v, bs => by
    rw [serVariantIf, VariantWritten]
    exact puts_serVariantIf cond mode name (i + 1) vs v bs
end

end Dlhn.Derive
