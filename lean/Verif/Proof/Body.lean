import Verif.Proof.Records
import Verif.Proof.DeGen
/-! # Dynamic values: validation, writing, reading back -/
namespace Dlhn.Body

open Spec PrefixVarint

/-! ## Parts -/

theorem self_mem_parts (b : Body) : b ∈ parts b := by
  cases b <;> simp [parts]

theorem mem_partsAll {bs : List Body} {c : Body} : c ∈ partsAll bs ↔ ∃ b ∈ bs, c ∈ parts b := by
  induction bs with
  | nil => simp [partsAll]
  | cons b bs ih => simp [partsAll, ih]

theorem mem_partsEntries {es : List (String × Body)} {c : Body} :
    c ∈ partsEntries es ↔ ∃ e ∈ es, c ∈ parts e.2 := by
  induction es with
  | nil => simp [partsEntries]
  | cons e es ih => obtain ⟨k, b⟩ := e; simp [partsEntries, ih]

theorem self_mem_headerParts (h : Header) : h ∈ headerParts h := by
  cases h <;> simp [headerParts]

/-! ## Validation -/

mutual
theorem validate_iff : (h : Header) → (b : Body) → (validate h b = true ↔ Conforms h b)
  | .optional h, b => by
    cases b with
    | some c =>
      rw [validate, validate_iff h c]
      exact ⟨fun x => .some _ _ x, fun x => by cases x; assumption⟩
    | none => rw [validate]; exact ⟨fun _ => .none _, fun _ => rfl⟩
    | _ => exact ⟨fun x => by simp [validate] at x, fun x => by cases x⟩
  | .array h, b => by
    cases b with
    | array bs =>
      rw [validate, List.all_eq_true]
      constructor
      · exact fun x => .array _ _ fun b hb => (validate_iff h b).mp (x b hb)
      · intro x b hb
        cases x with
        | array _ _ x => exact (validate_iff h b).mpr (x b hb)
    | _ => exact ⟨fun x => by simp [validate] at x, fun x => by cases x⟩
  | .map h, b => by
    cases b with
    | map es =>
      rw [validate, List.all_eq_true]
      constructor
      · exact fun x => .map _ _ fun e he => (validate_iff h e.2).mp (x e he)
      · intro x e he
        cases x with
        | map _ _ x => exact (validate_iff h e.2).mpr (x e he)
    | _ => exact ⟨fun x => by simp [validate] at x, fun x => by cases x⟩
  | .tuple hs, b => by
    cases b with
    | tuple bs =>
      rw [validate, Bool.and_eq_true, beq_iff_eq]
      constructor
      · intro x
        exact .tuple _ _ x.1 ((validateZip_iff hs bs x.1).mp x.2)
      · intro x
        cases x with
        | tuple _ _ x y => exact ⟨x, (validateZip_iff hs bs x).mpr y⟩
    | _ => exact ⟨fun x => by simp [validate] at x, fun x => by cases x⟩
  | .enum hs, b => by
    cases b with
    | enum i c =>
      rw [validate, validateNth_iff]
      constructor
      · rintro ⟨h, x, y⟩
        exact .enum _ _ _ _ x y
      · intro x
        cases x with
        | enum _ _ h _ x y => exact ⟨h, x, y⟩
    | _ => exact ⟨fun x => by simp [validate] at x, fun x => by cases x⟩
  | .unit, b => by
    cases b with
    | unit => exact ⟨fun _ => .unit, fun _ => by rw [validate]⟩
    | _ => exact ⟨fun x => by simp [validate] at x, fun x => by cases x⟩
  | .boolean, b => by
    cases b with
    | boolean => exact ⟨fun _ => .boolean _, fun _ => by rw [validate]⟩
    | _ => exact ⟨fun x => by simp [validate] at x, fun x => by cases x⟩
  | .uint8, b => by
    cases b with
    | uint8 => exact ⟨fun _ => .uint8 _, fun _ => by rw [validate]⟩
    | _ => exact ⟨fun x => by simp [validate] at x, fun x => by cases x⟩
  | .uint16, b => by
    cases b with
    | uint16 => exact ⟨fun _ => .uint16 _, fun _ => by rw [validate]⟩
    | _ => exact ⟨fun x => by simp [validate] at x, fun x => by cases x⟩
  | .uint32, b => by
    cases b with
    | uint32 => exact ⟨fun _ => .uint32 _, fun _ => by rw [validate]⟩
    | _ => exact ⟨fun x => by simp [validate] at x, fun x => by cases x⟩
  | .uint64, b => by
    cases b with
    | uint64 => exact ⟨fun _ => .uint64 _, fun _ => by rw [validate]⟩
    | _ => exact ⟨fun x => by simp [validate] at x, fun x => by cases x⟩
  | .int8, b => by
    cases b with
    | int8 => exact ⟨fun _ => .int8 _, fun _ => by rw [validate]⟩
    | _ => exact ⟨fun x => by simp [validate] at x, fun x => by cases x⟩
  | .int16, b => by
    cases b with
    | int16 => exact ⟨fun _ => .int16 _, fun _ => by rw [validate]⟩
    | _ => exact ⟨fun x => by simp [validate] at x, fun x => by cases x⟩
  | .int32, b => by
    cases b with
    | int32 => exact ⟨fun _ => .int32 _, fun _ => by rw [validate]⟩
    | _ => exact ⟨fun x => by simp [validate] at x, fun x => by cases x⟩
  | .int64, b => by
    cases b with
    | int64 => exact ⟨fun _ => .int64 _, fun _ => by rw [validate]⟩
    | _ => exact ⟨fun x => by simp [validate] at x, fun x => by cases x⟩
  | .float32, b => by
    cases b with
    | float32 => exact ⟨fun _ => .float32 _, fun _ => by rw [validate]⟩
    | _ => exact ⟨fun x => by simp [validate] at x, fun x => by cases x⟩
  | .float64, b => by
    cases b with
    | float64 => exact ⟨fun _ => .float64 _, fun _ => by rw [validate]⟩
    | _ => exact ⟨fun x => by simp [validate] at x, fun x => by cases x⟩
  | .bigUInt, b => by
    cases b with
    | bigUInt => exact ⟨fun _ => .bigUInt _, fun _ => by rw [validate]⟩
    | _ => exact ⟨fun x => by simp [validate] at x, fun x => by cases x⟩
  | .bigInt, b => by
    cases b with
    | bigInt => exact ⟨fun _ => .bigInt _, fun _ => by rw [validate]⟩
    | _ => exact ⟨fun x => by simp [validate] at x, fun x => by cases x⟩
  | .bigDecimal, b => by
    cases b with
    | bigDecimal => exact ⟨fun _ => .bigDecimal _, fun _ => by rw [validate]⟩
    | _ => exact ⟨fun x => by simp [validate] at x, fun x => by cases x⟩
  | .string, b => by
    cases b with
    | string => exact ⟨fun _ => .string _, fun _ => by rw [validate]⟩
    | _ => exact ⟨fun x => by simp [validate] at x, fun x => by cases x⟩
  | .binary, b => by
    cases b with
    | binary => exact ⟨fun _ => .binary _, fun _ => by rw [validate]⟩
    | _ => exact ⟨fun x => by simp [validate] at x, fun x => by cases x⟩
  | .date, b => by
    cases b with
    | date => exact ⟨fun _ => .date _, fun _ => by rw [validate]⟩
    | _ => exact ⟨fun x => by simp [validate] at x, fun x => by cases x⟩
  | .dateTime, b => by
    cases b with
    | dateTime => exact ⟨fun _ => .dateTime _, fun _ => by rw [validate]⟩
    | _ => exact ⟨fun x => by simp [validate] at x, fun x => by cases x⟩
theorem validateZip_iff : (hs : List Header) → (bs : List Body) → hs.length = bs.length →
    (validateZip hs bs = true ↔ ∀ (i : Nat) (h : Header) (b : Body), hs[i]? = Option.some h →
      bs[i]? = Option.some b → Conforms h b)
  | [], [], _ => by simp [validateZip]
  | [], _ :: _, hl => by simp at hl
  | _ :: _, [], hl => by simp at hl
  | h :: hs, b :: bs, hl => by
    rw [validateZip, Bool.and_eq_true, validate_iff h b,
      validateZip_iff hs bs (by simpa using hl)]
    constructor
    · rintro ⟨x, y⟩ i h' b' hi hj
      cases i with
      | zero => simp at hi hj; subst hi; subst hj; exact x
      | succ i => exact y i h' b' (by simpa using hi) (by simpa using hj)
    · intro x
      exact ⟨x 0 h b rfl rfl, fun i h' b' hi hj => x (i + 1) h' b' (by simpa using hi)
        (by simpa using hj)⟩
theorem validateNth_iff : (hs : List Header) → (n : Nat) → (b : Body) →
    (validateNth hs n b = true ↔ ∃ h, hs[n]? = Option.some h ∧ Conforms h b)
  | [], n, b => by simp [validateNth]
  | h :: hs, 0, b => by rw [validateNth, validate_iff h b]; simp
  | h :: hs, n + 1, b => by rw [validateNth, validateNth_iff hs n b]; simp
end

/-! ## Writing -/

theorem exists_mono {t : Target} {b c : Body} (h : ∀ x ∈ parts c, x ∈ parts b) (hb : Exists t b) :
    Exists t c := fun x hx => hb x (h x hx)

mutual
theorem exec_ser (t : Target) (mode : BuildMode) : (b : Body) →
    (∀ c ∈ parts b, LengthsFit t c) → DatesFit mode b →
    (ser mode b).exec = (bodyWire b, .ok ())
  | .unit, _, _ => by rw [ser, bodyWire]; rfl
  | .none, _, _ => by rw [ser, bodyWire, Ser.exec_emit]
  | .some b, hl, hd => by
    rw [ser, bodyWire, WProg.exec_andThen_ok (Ser.exec_emit _), exec_ser t mode b
      (fun c hc => hl c (by simp [parts, hc])) (fun e d h => hd e d (by simp [parts, h]))]
    rfl
  | .boolean b, _, _ => by cases b <;> simp [ser, Ser.serBool, bodyWire, Ser.exec_emit]
  | .uint8 v, _, _ => by rw [ser, bodyWire, Ser.serU8, Ser.exec_emit]
  | .uint16 v, _, _ => by rw [ser, bodyWire, Ser.exec_serU16]
  | .uint32 v, _, _ => by rw [ser, bodyWire, Ser.exec_serU32]
  | .uint64 v, _, _ => by rw [ser, bodyWire, Ser.exec_serU64]
  | .int8 v, _, _ => by rw [ser, bodyWire, Ser.serI8, Ser.exec_emit]
  | .int16 v, _, _ => by rw [ser, bodyWire, Ser.exec_serI16]
  | .int32 v, _, _ => by rw [ser, bodyWire, Ser.exec_serI32]
  | .int64 v, _, _ => by rw [ser, bodyWire, Ser.exec_serI64]
  | .float32 v, _, _ => by rw [ser, bodyWire, Ser.exec_serF32]
  | .float64 v, _, _ => by rw [ser, bodyWire, Ser.exec_serF64]
  | .bigUInt v, hl, _ => by
    rw [ser, bodyWire, BigUint.exec_ser _ (De.lt_64_of_lt_bits (hl _ (self_mem_parts _)))]
  | .bigInt v, hl, _ => by
    rw [ser, bodyWire, BigInt.exec_ser _ (De.lt_64_of_lt_bits (hl _ (self_mem_parts _)))]
  | .bigDecimal v, hl, _ => by
    rw [ser, bodyWire, BigDecimal.exec_ser _ (De.lt_64_of_lt_bits (hl _ (self_mem_parts _)))]
  | .string s, hl, _ => by
    rw [ser, bodyWire, Ser.exec_serStr _ (De.lt_64_of_lt_bits (hl _ (self_mem_parts _)))]
  | .binary bs, hl, _ => by
    rw [ser, bodyWire, Ser.exec_serBytes _ (De.lt_64_of_lt_bits (hl _ (self_mem_parts _)))]
  | .array bs, hl, hd => by
    have h64 : bs.length < 2 ^ 64 := De.lt_64_of_lt_bits (hl _ (self_mem_parts _))
    rw [ser, bodyWire, WProg.exec_andThen_ok (Ser.exec_serHint _ (by simpa using h64)),
      exec_serAll t mode bs (fun c hc => hl c (by simp [parts, hc]))
        (fun e d h => hd e d (by simp [parts, h]))]
    rfl
  | .tuple bs, hl, hd => by
    rw [ser, bodyWire, exec_serAll t mode bs (fun c hc => hl c (by simp [parts, hc]))
        (fun e d h => hd e d (by simp [parts, h]))]
  | .map es, hl, hd => by
    have hm := hl _ (self_mem_parts _)
    have h64 : es.length < 2 ^ 64 := De.lt_64_of_lt_bits hm.1
    rw [ser, bodyWire, WProg.exec_andThen_ok (Ser.exec_serHint _ (by simpa using h64)),
      exec_serEntries t mode es hm.2 (fun c hc => hl c (by simp [parts, hc]))
        (fun e d h => hd e d (by simp [parts, h]))]
    rfl
  | .enum i b, hl, hd => by
    rw [ser, bodyWire, WProg.exec_andThen_ok (Ser.exec_serU32 _), exec_ser t mode b
      (fun c hc => hl c (by simp [parts, hc])) (fun e d h => hd e d (by simp [parts, h]))]
  | .date d, _, hd => by
    rw [ser, bodyWire, Date.exec_ser _ _ fun e => hd e d (self_mem_parts _)]
  | .dateTime d, _, _ => by rw [ser, bodyWire, DateTime.exec_ser]
theorem exec_serAll (t : Target) (mode : BuildMode) : (bs : List Body) →
    (∀ c ∈ partsAll bs, LengthsFit t c) → (mode = .debug → ∀ d, .date d ∈ partsAll bs → DateFits d) →
    (serAll mode bs).exec = (bodiesWire bs, .ok ())
  | [], _, _ => by rw [serAll, bodiesWire]; rfl
  | b :: bs, hl, hd => by
    rw [serAll, bodiesWire, WProg.exec_andThen_ok (exec_ser t mode b
        (fun c hc => hl c (by simp [partsAll, hc])) (fun e d h => hd e d (by simp [partsAll, h]))),
      exec_serAll t mode bs (fun c hc => hl c (by simp [partsAll, hc]))
        (fun e d h => hd e d (by simp [partsAll, h]))]
theorem exec_serEntries (t : Target) (mode : BuildMode) : (es : List (String × Body)) →
    (∀ e ∈ es, (utf8 e.1).length < 2 ^ t.ptr.bits) →
    (∀ c ∈ partsEntries es, LengthsFit t c) →
    (mode = .debug → ∀ d, .date d ∈ partsEntries es → DateFits d) →
    (serEntries mode es).exec = (entriesWire es, .ok ())
  | [], _, _, _ => by rw [serEntries, entriesWire]; rfl
  | (k, b) :: es, hk, hl, hd => by
    rw [serEntries, entriesWire,
      WProg.exec_andThen_ok (Ser.exec_serStr k (De.lt_64_of_lt_bits (hk (k, b) (by simp)))),
      WProg.exec_andThen_ok (exec_ser t mode b
        (fun c hc => hl c (by simp [partsEntries, hc]))
        (fun e d h => hd e d (by simp [partsEntries, h]))),
      exec_serEntries t mode es (fun e he => hk e (by simp [he]))
        (fun c hc => hl c (by simp [partsEntries, hc]))
        (fun e d h => hd e d (by simp [partsEntries, h]))]
    simp
end

end Dlhn.Body
