import Verif.Proof.DeriveDe
import Verif.Props.BigNum
import Verif.Spec.SameData
/-! # Values that carry the same data -/
namespace Dlhn

open Spec hiding variantFields

namespace Derive

/-- What is asked of one part of a value for its bytes to exist. -/
structure Written (t : Target) (mode : BuildMode) (p : Σ T, Carrier T) : Prop where
  real : RealPart t p
  date : mode = .debug → ∀ d : Date, p = ⟨.date, d⟩ → DateFits d

theorem exec_andThen_congr {p p' q q' : WProg SerErr} (h1 : p.exec = p'.exec)
    (h2 : q.exec = q'.exec) : (p.andThen q).exec = (p'.andThen q').exec := by
  rw [WProg.exec_andThen, WProg.exec_andThen, h1, h2]

theorem exec_serSeq_congr {α : Type} {f g : α → WProg SerErr} {R : α → α → Prop} :
    (vs ws : List α) → Pointwise R vs ws →
    (∀ v ∈ vs, ∀ w ∈ ws, R v w → (f v).exec = (g w).exec) →
    vs.length = ws.length ∧ (serSeq f vs).exec = (serSeq g ws).exec
  | [], [], _, _ => ⟨rfl, rfl⟩
  | v :: vs, w :: ws, hp, h => by
    obtain ⟨h1, h2⟩ := exec_serSeq_congr vs ws hp.2 fun v hv w hw =>
      h v (by simp [hv]) w (by simp [hw])
    exact ⟨by simp [h1], by
      rw [serSeq, serSeq]
      exact exec_andThen_congr (h v (by simp) w (by simp) hp.1) h2⟩
  | [], _ :: _, hp, _ => hp.elim
  | _ :: _, [], hp, _ => hp.elim

theorem exec_serMap_congr {α : Type} {f g : α → WProg SerErr} {R : α → α → Prop} :
    (vs ws : List (String × α)) → Pointwise (fun v w => v.1 = w.1 ∧ R v.2 w.2) vs ws →
    (∀ v ∈ vs, ∀ w ∈ ws, R v.2 w.2 → (f v.2).exec = (g w.2).exec) →
    vs.length = ws.length ∧ (serMap f vs).exec = (serMap g ws).exec
  | [], [], _, _ => ⟨rfl, rfl⟩
  | (k, v) :: vs, (l, w) :: ws, hp, h => by
    obtain ⟨h1, h2⟩ := exec_serMap_congr vs ws hp.2 fun v hv w hw =>
      h v (by simp [hv]) w (by simp [hw])
    have hk : k = l := hp.1.1
    subst hk
    exact ⟨by simp [h1], by
      rw [serMap, serMap]
      exact exec_andThen_congr rfl (exec_andThen_congr (h _ (by simp) _ (by simp) hp.1.2) h2)⟩
  | [], _ :: _, hp, _ => hp.elim
  | _ :: _, [], hp, _ => hp.elim

theorem same_decimal {mode mode' : BuildMode} {v w : Num.Decimal} (hv : ScaleFits v)
    (hw : ScaleFits w) (h : SameNumber v w) :
    Format.serBigDecimal mode v = Format.serBigDecimal mode' w := by
  obtain ⟨b, hb, -⟩ := Props.C45_value mode v hv
  have hc := (Props.C45_canonical mode mode' v w hv hw).mpr h
  rw [Format.serBigDecimal_eq mode v hv b hb, Format.serBigDecimal_eq mode' w hw b (hc ▸ hb)]

theorem same_instant {v w : Time.OffsetDateTime} (hv : v.Valid) (hw : w.Valid)
    (h : v.instant = w.instant) : v.seconds = w.seconds ∧ v.nanos = w.nanos := by
  have h1 := hv.1
  have h2 := hw.1
  simp only [Time.OffsetDateTime.instant] at h
  omega

mutual
theorem same_bytes (t : Target) (mode mode' : BuildMode) : (T : RTy) → Symmetric T →
    (v w : Carrier T) → (∀ p ∈ valueParts T v, Written t mode p) →
    (∀ p ∈ valueParts T w, Written t mode' p) → SameData T v w →
    (ser mode T v).exec = (ser mode' T w).exec
  | .unit, _, _, _, _, _, _ => by rw [ser, ser]
  | .bool, _, _, _, _, _, h => by simp [SameData] at h; subst h; rw [ser, ser]
  | .u8, _, _, _, _, _, h => by simp [SameData] at h; subst h; rw [ser, ser]
  | .u16, _, _, _, _, _, h => by simp [SameData] at h; subst h; rw [ser, ser]
  | .u32, _, _, _, _, _, h => by simp [SameData] at h; subst h; rw [ser, ser]
  | .u64, _, _, _, _, _, h => by simp [SameData] at h; subst h; rw [ser, ser]
  | .i8, _, _, _, _, _, h => by simp [SameData] at h; subst h; rw [ser, ser]
  | .i16, _, _, _, _, _, h => by simp [SameData] at h; subst h; rw [ser, ser]
  | .i32, _, _, _, _, _, h => by simp [SameData] at h; subst h; rw [ser, ser]
  | .i64, _, _, _, _, _, h => by simp [SameData] at h; subst h; rw [ser, ser]
  | .f32, _, _, _, _, _, h => by simp [SameData] at h; subst h; rw [ser, ser]
  | .f64, _, _, _, _, _, h => by simp [SameData] at h; subst h; rw [ser, ser]
  | .bigUint, _, _, _, _, _, h => by simp [SameData] at h; subst h; rw [ser, ser]
  | .numBigUint, _, _, _, _, _, h => by simp [SameData] at h; subst h; rw [ser, ser]
  | .bigInt, _, _, _, _, _, h => by simp [SameData] at h; subst h; rw [ser, ser]
  | .numBigInt, _, _, _, _, _, h => by simp [SameData] at h; subst h; rw [ser, ser]
  | .str, _, _, _, _, _, h => by simp [SameData] at h; subst h; rw [ser, ser]
  | .string, _, _, _, _, _, h => by simp [SameData] at h; subst h; rw [ser, ser]
  | .bytes, _, _, _, _, _, h => by simp [SameData] at h; subst h; rw [ser, ser]
  | .byteBuf, _, _, _, _, _, h => by simp [SameData] at h; subst h; rw [ser, ser]
  | .dateTime, _, _, _, _, _, h => by simp [SameData] at h; subst h; rw [ser, ser]
  | .foreign, _, _, _, _, _, h => by simp [SameData] at h; subst h; rw [ser, ser]
  | .union _, _, v, _, _, _, _ => nomatch v
  | .bigDecimal, _, v, w, _, _, h => by
    rw [SameData] at h
    rw [ser, ser]
    rcases h with rfl | ⟨h1, h2⟩
    · rfl
    · rw [BigDecimal.ser, BigDecimal.ser, if_pos h1, if_pos h2]
  | .numBigDecimal, _, v, w, hv, hw, h => by
    rw [SameData] at h
    rw [ser, ser, same_decimal (hv _ (self_mem_valueParts _ _)).real.2
      (hw _ (self_mem_valueParts _ _)).real.2 h]
  | .date, _, v, w, hv, hw, h => by
    have h : v = w := by simpa [SameData] using h
    subst h
    rw [ser, ser, Date.exec_ser mode v fun hm => (hv _ (self_mem_valueParts _ _)).date hm v rfl,
      Date.exec_ser mode' v fun hm => (hw _ (self_mem_valueParts _ _)).date hm v rfl]
  | .timeDate, _, v, w, hv, hw, h => by
    have h : v = w := by simpa [SameData] using h
    subst h
    rw [ser, ser, (reads_timeDate t mode v (hv _ (self_mem_valueParts _ _)).real).bytes,
      (reads_timeDate t mode' v (hw _ (self_mem_valueParts _ _)).real).bytes]
  | .offsetDateTime, _, v, w, hv, hw, h => by
    rw [SameData] at h
    obtain ⟨h1, h2⟩ := same_instant (hv _ (self_mem_valueParts _ _)).real
      (hw _ (self_mem_valueParts _ _)).real h
    rw [ser, ser, Format.serDateTime, Format.serDateTime, h1, h2]
  | .option T, _, none, none, _, _, _ => by rw [ser, ser]
  | .option T, _, none, some _, _, _, h => by rw [SameData] at h; exact h.elim
  | .option T, _, some _, none, _, _, h => by rw [SameData] at h; exact h.elim
  | .option T, hT, some v, some w, hv, hw, h => by
    rw [SameData] at h
    rw [ser, ser]
    exact exec_andThen_congr rfl (same_bytes t mode mode' T
      (fun U hU => hT U (by simp [typeParts, hU])) v w
      (fun p hp => hv p (by simp [valueParts, hp])) (fun p hp => hw p (by simp [valueParts, hp])) h)
  | .vec T, hT, vs, ws, hv, hw, h => by
    rw [SameData] at h
    obtain ⟨h1, h2⟩ := exec_serSeq_congr (f := ser mode T) (g := ser mode' T) vs ws h
      fun v hvm w hwm => same_bytes t mode mode' T (fun U hU => hT U (by simp [typeParts, hU])) v w
        (fun p hp => hv p (by
          rw [valueParts]
          exact List.mem_cons_of_mem _ (List.mem_flatten.mpr ⟨_, List.mem_map_of_mem hvm, hp⟩)))
        (fun p hp => hw p (by
          rw [valueParts]
          exact List.mem_cons_of_mem _ (List.mem_flatten.mpr ⟨_, List.mem_map_of_mem hwm, hp⟩)))
    rw [ser, ser, h1]
    exact exec_andThen_congr rfl h2
  | .btreeMap T, hT, vs, ws, hv, hw, h => by
    rw [SameData] at h
    obtain ⟨h1, h2⟩ := exec_serMap_congr (f := ser mode T) (g := ser mode' T) vs ws h
      fun v hvm w hwm => same_bytes t mode mode' T (fun U hU => hT U (by simp [typeParts, hU]))
        v.2 w.2 (fun p hp => hv p (by
          rw [valueParts]
          exact List.mem_cons_of_mem _ (List.mem_flatten.mpr
            ⟨_, List.mem_map_of_mem (f := fun e => valueParts T e.2) hvm, hp⟩)))
        (fun p hp => hw p (by
          rw [valueParts]
          exact List.mem_cons_of_mem _ (List.mem_flatten.mpr
            ⟨_, List.mem_map_of_mem (f := fun e => valueParts T e.2) hwm, hp⟩)))
    rw [ser, ser, h1]
    exact exec_andThen_congr rfl h2
  | .hashMap T, hT, vs, ws, hv, hw, h => by
    rw [SameData] at h
    obtain ⟨h1, h2⟩ := exec_serMap_congr (f := ser mode T) (g := ser mode' T) vs ws h
      fun v hvm w hwm => same_bytes t mode mode' T (fun U hU => hT U (by simp [typeParts, hU]))
        v.2 w.2 (fun p hp => hv p (by
          rw [valueParts]
          exact List.mem_cons_of_mem _ (List.mem_flatten.mpr
            ⟨_, List.mem_map_of_mem (f := fun e => valueParts T e.2) hvm, hp⟩)))
        (fun p hp => hw p (by
          rw [valueParts]
          exact List.mem_cons_of_mem _ (List.mem_flatten.mpr
            ⟨_, List.mem_map_of_mem (f := fun e => valueParts T e.2) hwm, hp⟩)))
    rw [ser, ser, h1]
    exact exec_andThen_congr rfl h2
  | .tuple Ts, hT, vs, ws, hv, hw, h => by
    rw [SameData] at h
    rw [ser, ser]
    exact same_tuple t mode mode' Ts (fun U hU => hT U (by simp [typeParts, hU])) vs ws
      (fun p hp => hv p (by simp [valueParts, hp])) (fun p hp => hw p (by simp [valueParts, hp])) h
  | .struct _ (.named fs), hT, vs, ws, hv, hw, h => by
    rw [SameData] at h
    rw [ser, ser]
    exact same_fields t mode mode' fs (fun U hU => hT U (by simp [typeParts, hU])) vs ws
      (fun p hp => hv p (by simp [valueParts, hp])) (fun p hp => hw p (by simp [valueParts, hp])) h
  | .struct _ (.unnamed []), _, _, _, _, _, _ => by rw [ser, ser]
  | .struct _ (.unnamed [.mk attrs n T]), hT, (v, ()), (w, ()), hv, hw, h => by
    have hns : ¬ Skipped attrs :=
      (hT _ (self_mem_typeParts _)).2 rfl (.mk attrs n T) List.mem_cons_self
    rw [SameData, SameKept] at h
    rw [ser, ser]
    exact same_bytes t mode mode' T
      (fun U hU => hT U (by simp [typeParts, typePartsFields, hns, hU])) v w
      (fun p hp => hv p (by simp [valueParts, valuePartsFields, hns, hp]))
      (fun p hp => hw p (by simp [valueParts, valuePartsFields, hns, hp])) (h.1 hns)
  | .struct _ (.unnamed (f :: g :: fs)), hT, vs, ws, hv, hw, h => by
    rw [SameData] at h
    rw [ser, ser]
    exact same_fields t mode mode' (f :: g :: fs) (fun U hU => hT U (by simp [typeParts, hU])) vs ws
      (fun p hp => hv p (by simp [valueParts, hp])) (fun p hp => hw p (by simp [valueParts, hp])) h
  | .struct _ .unit, _, _, _, _, _, _ => by rw [ser, ser]
  | .enum name vs, hT, v, w, hv, hw, h => by
    rw [SameData] at h
    rw [ser, ser]
    exact same_choice t mode mode' name 0 vs (fun U hU => hT U (by simp [typeParts, hU])) v w
      (fun p hp => hv p (by simp [valueParts, hp])) (fun p hp => hw p (by simp [valueParts, hp])) h
theorem same_tuple (t : Target) (mode mode' : BuildMode) : (Ts : List RTy) →
    (∀ U ∈ typePartsAll Ts, SymmetricPart U) →
    (v w : TupleCarrier Ts) → (∀ p ∈ valuePartsAll Ts v, Written t mode p) →
    (∀ p ∈ valuePartsAll Ts w, Written t mode' p) → SameTuple Ts v w →
    (serTuple mode Ts v).exec = (serTuple mode' Ts w).exec
  | [], _, _, _, _, _, _ => by rw [serTuple, serTuple]
  | T :: Ts, hT, (v, vs), (w, ws), hv, hw, h => by
    rw [SameTuple] at h
    rw [serTuple, serTuple]
    exact exec_andThen_congr
      (same_bytes t mode mode' T (fun U hU => hT U (by simp [typePartsAll, hU])) v w
        (fun p hp => hv p (by simp [valuePartsAll, hp]))
        (fun p hp => hw p (by simp [valuePartsAll, hp])) h.1)
      (same_tuple t mode mode' Ts (fun U hU => hT U (by simp [typePartsAll, hU])) vs ws
        (fun p hp => hv p (by simp [valuePartsAll, hp]))
        (fun p hp => hw p (by simp [valuePartsAll, hp])) h.2)
theorem same_fields (t : Target) (mode mode' : BuildMode) : (fs : List RField) →
    (∀ U ∈ typePartsFields fs, SymmetricPart U) →
    (v w : FieldCarrier fs) → (∀ p ∈ valuePartsFields fs v, Written t mode p) →
    (∀ p ∈ valuePartsFields fs w, Written t mode' p) → SameKept fs v w →
    (serFields mode fs v).exec = (serFields mode' fs w).exec
  | [], _, _, _, _, _, _ => by rw [serFields, serFields]
  | .mk attrs _ T :: fs, hT, (v, vs), (w, ws), hv, hw, h => by
    rw [SameKept] at h
    rw [serFields, serFields]
    have hr := same_fields t mode mode' fs (fun U hU => hT U (by simp [typePartsFields, hU])) vs ws
      (fun p hp => hv p (by simp [valuePartsFields, hp]))
      (fun p hp => hw p (by simp [valuePartsFields, hp])) h.2
    by_cases hk : Skipped attrs
    · rw [if_pos ((serdeSkips_iff attrs).mpr hk), if_pos ((serdeSkips_iff attrs).mpr hk)]
      exact hr
    · have hk' : ¬ serdeSkips attrs = true := by rw [serdeSkips_iff]; exact hk
      rw [if_neg hk', if_neg hk']
      exact exec_andThen_congr
        (same_bytes t mode mode' T (fun U hU => hT U (by simp [typePartsFields, hk, hU])) v w
          (fun p hp => hv p (by simp [valuePartsFields, hk, hp]))
          (fun p hp => hw p (by simp [valuePartsFields, hk, hp])) (h.1 hk)) hr
theorem same_choice (t : Target) (mode mode' : BuildMode) (name : String) (i : Nat) :
    (vs : List RVariant) → (∀ U ∈ typePartsVariants vs, SymmetricPart U) →
    (v w : VariantsCarrier vs) → (∀ p ∈ valuePartsVariant vs v, Written t mode p) →
    (∀ p ∈ valuePartsVariant vs w, Written t mode' p) → SameChoice vs v w →
    (serVariant mode name i vs v).exec = (serVariant mode' name i vs w).exec
  | .mk attrs _ (.named fs) :: vs, hT, .inl v, .inl w, hv, hw, h => by
    rw [SameChoice] at h
    rw [serVariant, serVariant]
    split
    · rfl
    · exact exec_andThen_congr rfl (same_fields t mode mode' fs
        (fun U hU => hT U (by simp [typePartsVariants, hU])) v w
        (fun p hp => hv p (by simpa [valuePartsVariant] using hp))
        (fun p hp => hw p (by simpa [valuePartsVariant] using hp)) h)
  | .mk attrs _ (.unnamed fs) :: vs, hT, .inl v, .inl w, hv, hw, h => by
    rw [SameChoice] at h
    rw [serVariant, serVariant]
    split
    · rfl
    · exact exec_andThen_congr rfl (same_fields t mode mode' fs
        (fun U hU => hT U (by simp [typePartsVariants, hU])) v w
        (fun p hp => hv p (by simpa [valuePartsVariant] using hp))
        (fun p hp => hw p (by simpa [valuePartsVariant] using hp)) h)
  | .mk attrs _ .unit :: vs, _, .inl _, .inl _, _, _, _ => by rw [serVariant, serVariant]
  | .mk attrs _ fields :: vs, hT, .inr v, .inr w, hv, hw, h => by
    have h' : SameChoice vs v w := by
      cases fields <;> (rw [SameChoice] at h; exact h)
    rw [serVariant, serVariant]
    exact same_choice t mode mode' name (i + 1) vs
      (fun U hU => hT U (by cases fields <;> simp [typePartsVariants, hU])) v w
      (fun p hp => hv p (by cases fields <;> simpa [valuePartsVariant] using hp))
      (fun p hp => hw p (by cases fields <;> simpa [valuePartsVariant] using hp)) h'
  | .mk _ _ fields :: _, _, .inl _, .inr _, _, _, h => by
    cases fields <;> (rw [SameChoice] at h; exact h.elim)
  | .mk _ _ fields :: _, _, .inr _, .inl _, _, _, h => by
    cases fields <;> (rw [SameChoice] at h; exact h.elim)
end

/-! ## Back -/

theorem pointwise_join {α : Type} {R S : α → α → Prop} : (vs ws xs : List α) →
    (∀ v ∈ vs, ∀ w ∈ ws, ∀ x ∈ xs, R v x → R w x → S v w) → Pointwise R vs xs → Pointwise R ws xs →
    Pointwise S vs ws
  | [], [], [], _, _, _ => trivial
  | v :: vs, w :: ws, x :: xs, h, h1, h2 =>
    ⟨h v (by simp) w (by simp) x (by simp) h1.1 h2.1, pointwise_join vs ws xs
      (fun v hv w hw x hx => h v (by simp [hv]) w (by simp [hw]) x (by simp [hx])) h1.2 h2.2⟩
  | _ :: _, _, [], _, h, _ => h.elim
  | [], _, _ :: _, _, h, _ => h.elim
  | [], _ :: _, [], _, _, h => h.elim
  | _ :: _, [], _ :: _, _, _, h => h.elim

/-- Maps in another order are iterated in another order. -/
def OrderKept (env : Env) : Prop :=
  ∀ {α : Type} {es fs : List (String × α)}, env.order es = env.order fs → es = fs

mutual
theorem same_of_returned {env : Env} (hi : OrderKept env) : (T : RTy) → (∀ U ∈ typeParts T, SymmetricPart U) →
    (v w x : Carrier T) → ReturnedBy env T v x → ReturnedBy env T w x → SameData T v w
  | .unit, _, _, _, _, _, _ => by simp [SameData]
  | .bool, _, _, _, _, h, k => by simp_all [ReturnedBy, SameData]
  | .u8, _, _, _, _, h, k => by simp_all [ReturnedBy, SameData]
  | .u16, _, _, _, _, h, k => by simp_all [ReturnedBy, SameData]
  | .u32, _, _, _, _, h, k => by simp_all [ReturnedBy, SameData]
  | .u64, _, _, _, _, h, k => by simp_all [ReturnedBy, SameData]
  | .i8, _, _, _, _, h, k => by simp_all [ReturnedBy, SameData]
  | .i16, _, _, _, _, h, k => by simp_all [ReturnedBy, SameData]
  | .i32, _, _, _, _, h, k => by simp_all [ReturnedBy, SameData]
  | .i64, _, _, _, _, h, k => by simp_all [ReturnedBy, SameData]
  | .f32, _, _, _, _, h, k => by simp_all [ReturnedBy, SameData]
  | .f64, _, _, _, _, h, k => by simp_all [ReturnedBy, SameData]
  | .bigUint, _, _, _, _, h, k => by simp_all [ReturnedBy, SameData]
  | .numBigUint, _, _, _, _, h, k => by simp_all [ReturnedBy, SameData]
  | .bigInt, _, _, _, _, h, k => by simp_all [ReturnedBy, SameData]
  | .numBigInt, _, _, _, _, h, k => by simp_all [ReturnedBy, SameData]
  | .str, _, _, _, _, h, k => by simp_all [ReturnedBy, SameData]
  | .string, _, _, _, _, h, k => by simp_all [ReturnedBy, SameData]
  | .bytes, _, _, _, _, h, k => by simp_all [ReturnedBy, SameData]
  | .byteBuf, _, _, _, _, h, k => by simp_all [ReturnedBy, SameData]
  | .date, _, _, _, _, h, k => by simp_all [ReturnedBy, SameData]
  | .timeDate, _, _, _, _, h, k => by simp_all [ReturnedBy, SameData]
  | .dateTime, _, _, _, _, h, k => by simp_all [ReturnedBy, SameData]
  | .foreign, _, _, _, _, h, k => by simp_all [ReturnedBy, SameData]
  | .union _, _, v, _, _, _, _ => nomatch v
  | .bigDecimal, _, v, w, x, h, k => by
    rw [ReturnedBy] at h k
    rw [SameData]
    rw [h] at k
    by_cases h1 : v.signedBytes = [] <;> by_cases h2 : w.signedBytes = []
    · exact .inr ⟨h1, h2⟩
    · rw [if_pos h1, if_neg h2] at k
      exact absurd (by rw [← k]) h2
    · rw [if_neg h1, if_pos h2] at k
      exact absurd (by rw [k]) h1
    · rw [if_neg h1, if_neg h2] at k
      exact .inl k
  | .numBigDecimal, _, v, w, x, h, k => by
    rw [ReturnedBy] at h k
    rw [SameData]
    exact Num.same_trans h (Num.same_symm k)
  | .offsetDateTime, _, v, w, x, h, k => by
    rw [ReturnedBy] at h k
    rw [SameData]
    exact h.1.symm.trans k.1
  | .option T, _, none, none, _, _, _ => by rw [SameData]; trivial
  | .option T, _, none, some _, _, h, k => by
    simp only [ReturnedBy] at h k
    obtain ⟨u, hu, -⟩ := k
    exact absurd (h.symm.trans hu) (by simp)
  | .option T, _, some _, none, _, h, k => by
    simp only [ReturnedBy] at h k
    obtain ⟨u, hu, -⟩ := h
    exact absurd (k.symm.trans hu) (by simp)
  | .option T, hT, some v, some w, x, h, k => by
    simp only [ReturnedBy] at h k
    obtain ⟨u, hu, h⟩ := h
    obtain ⟨u', hu', k⟩ := k
    rw [hu] at hu'
    cases hu'
    rw [SameData]
    exact same_of_returned hi T (fun U hU => hT U (by simp [typeParts, hU])) v w u h k
  | .vec T, hT, vs, ws, xs, h, k => by
    rw [ReturnedBy] at h k
    rw [SameData]
    exact pointwise_join vs ws xs (fun v _ w _ x _ h k => same_of_returned hi T
      (fun U hU => hT U (by simp [typeParts, hU])) v w x h k) h k
  | .btreeMap T, hT, vs, ws, xs, h, k => by
    rw [ReturnedBy] at h k
    rw [SameData]
    exact pointwise_join vs ws xs (fun v _ w _ x _ h k => ⟨h.1.trans k.1.symm,
      same_of_returned hi T (fun U hU => hT U (by simp [typeParts, hU])) v.2 w.2 x.2 h.2 k.2⟩) h k
  | .hashMap T, hT, vs, ws, xs, h, k => by
    rw [ReturnedBy] at h k
    obtain ⟨ys, hy, h⟩ := h
    obtain ⟨zs, hz, k⟩ := k
    have e : ys = zs := hi (hy.symm.trans hz)
    subst e
    rw [SameData]
    exact pointwise_join vs ws ys (fun v _ w _ x _ h k => ⟨h.1.trans k.1.symm,
      same_of_returned hi T (fun U hU => hT U (by simp [typeParts, hU])) v.2 w.2 x.2 h.2 k.2⟩) h k
  | .tuple Ts, hT, vs, ws, xs, h, k => by
    rw [ReturnedBy] at h k
    rw [SameData]
    exact same_of_tuple hi Ts (fun U hU => hT U (by simp [typeParts, hU])) vs ws xs h k
  | .struct _ (.named fs), hT, vs, ws, xs, h, k => by
    have hs := hT _ (self_mem_typeParts _)
    rw [ReturnedBy] at h k
    rw [SameData]
    exact same_of_fields hi fs hs (fun U hU => hT U (by simp [typeParts, hU])) vs ws xs h k
  | .struct _ (.unnamed fs), hT, vs, ws, xs, h, k => by
    have hs := hT _ (self_mem_typeParts _)
    rw [ReturnedBy] at h k
    rw [SameData]
    exact same_of_fields hi fs hs.1 (fun U hU => hT U (by simp [typeParts, hU])) vs ws xs h k
  | .struct _ .unit, _, _, _, _, _, _ => by simp [SameData]
  | .enum _ vs, hT, v, w, x, h, k => by
    have hs := hT _ (self_mem_typeParts _)
    rw [ReturnedBy] at h k
    rw [SameData]
    exact same_of_variant hi vs (fun v hv => (hs.2 v hv).2.2)
      (fun U hU => hT U (by simp [typeParts, hU])) v w x h k
theorem same_of_tuple {env : Env} (hi : OrderKept env) : (Ts : List RTy) → (∀ U ∈ typePartsAll Ts, SymmetricPart U) →
    (v w x : TupleCarrier Ts) → TupleReturnedBy env Ts v x → TupleReturnedBy env Ts w x →
    SameTuple Ts v w
  | [], _, _, _, _, _, _ => by simp [SameTuple]
  | T :: Ts, hT, (v, vs), (w, ws), (x, xs), h, k => by
    rw [TupleReturnedBy] at h k
    rw [SameTuple]
    exact ⟨same_of_returned hi T (fun U hU => hT U (by simp [typePartsAll, hU])) v w x h.1 k.1,
      same_of_tuple hi Ts (fun U hU => hT U (by simp [typePartsAll, hU])) vs ws xs h.2 k.2⟩
theorem same_of_fields {env : Env} (hi : OrderKept env) : (fs : List RField) → SymmetricFields fs →
    (∀ U ∈ typePartsFields fs, SymmetricPart U) →
    (v w x : FieldCarrier fs) → FieldsReturnedBy env fs v x → FieldsReturnedBy env fs w x →
    SameKept fs v w
  | [], _, _, _, _, _, _, _ => by simp [SameKept]
  | .mk attrs _ T :: fs, hs, hT, (v, vs), (w, ws), (x, xs), h, k => by
    rw [FieldsReturnedBy] at h k
    rw [SameKept]
    refine ⟨fun hk => ?_, same_of_fields hi fs (fun f hf => hs f (by simp [hf]))
      (fun U hU => hT U (by simp [typePartsFields, hU])) vs ws xs h.2 k.2⟩
    have hk' : ¬ SkippedDe attrs := fun e => hk ((hs _ List.mem_cons_self).1.mpr e)
    rw [if_neg hk'] at h k
    exact same_of_returned hi T (fun U hU => hT U (by simp [typePartsFields, hk, hU])) v w x h.1 k.1
theorem same_of_variant {env : Env} (hi : OrderKept env) : (vs : List RVariant) →
    (∀ v ∈ vs, SymmetricFields (Spec.variantFields v)) →
    (∀ U ∈ typePartsVariants vs, SymmetricPart U) →
    (v w x : VariantsCarrier vs) → VariantReturnedBy env vs v x → VariantReturnedBy env vs w x →
    SameChoice vs v w
  | .mk _ _ (.named fs) :: vs, hs, hT, .inl v, .inl w, .inl x, h, k => by
    rw [VariantReturnedBy] at h k
    rw [SameChoice]
    exact same_of_fields hi fs (hs _ List.mem_cons_self)
      (fun U hU => hT U (by simp [typePartsVariants, hU])) v w x h k
  | .mk _ _ (.unnamed fs) :: vs, hs, hT, .inl v, .inl w, .inl x, h, k => by
    rw [VariantReturnedBy] at h k
    rw [SameChoice]
    exact same_of_fields hi fs (hs _ List.mem_cons_self)
      (fun U hU => hT U (by simp [typePartsVariants, hU])) v w x h k
  | .mk _ _ .unit :: vs, _, _, .inl _, .inl _, .inl _, _, _ => by rw [SameChoice]; trivial
  | .mk _ _ fields :: vs, hs, hT, .inr v, .inr w, .inr x, h, k => by
    have h' : VariantReturnedBy env vs v x := by
      cases fields <;> (rw [VariantReturnedBy] at h; exact h)
    have k' : VariantReturnedBy env vs w x := by
      cases fields <;> (rw [VariantReturnedBy] at k; exact k)
    have := same_of_variant hi vs (fun v hv => hs v (by simp [hv]))
      (fun U hU => hT U (by cases fields <;> simp [typePartsVariants, hU])) v w x h' k'
    cases fields <;> (rw [SameChoice]; exact this)
  | .mk _ _ fields :: _, _, _, .inl _, _, .inr _, h, _ => by
    cases fields <;> (rw [VariantReturnedBy] at h; exact h.elim)
  | .mk _ _ fields :: _, _, _, .inr _, _, .inl _, h, _ => by
    cases fields <;> (rw [VariantReturnedBy] at h; exact h.elim)
  | .mk _ _ fields :: _, _, _, _, .inl _, .inr _, _, k => by
    cases fields <;> (rw [VariantReturnedBy] at k; exact k.elim)
  | .mk _ _ fields :: _, _, _, _, .inr _, .inl _, _, k => by
    cases fields <;> (rw [VariantReturnedBy] at k; exact k.elim)
end

end Derive
end Dlhn
