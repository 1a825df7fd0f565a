import Verif.Proof.Grows
/-!
# Completeness of the comparison of headers
-/
namespace Dlhn.Spec

open Derive (BodyOk)

/-! ## A common form of the counterparts -/

mutual
/-- A value written with the types that all its counterparts have in common. -/
def flat : Body → Body
  | .unit => .tuple []
  | .some b => .some (flat b)
  | .boolean v => .uint8 (if v then 1 else 0)
  | .string s => .array ((utf8 s).map .uint8)
  | .binary bs => .array (bs.map .uint8)
  | .array bs => .array (flatAll bs)
  | .tuple bs => .tuple (flatAll bs)
  | .map es => .map (flatEntries es)
  | .enum i b => .enum i (flat b)
  | b => b
def flatAll : List Body → List Body
  | [] => []
  | b :: bs => flat b :: flatAll bs
def flatEntries : List (String × Body) → List (String × Body)
  | [] => []
  | (k, b) :: es => (k, flat b) :: flatEntries es
end

theorem flatAll_pointwise : {as bs : List Body} → as.length = bs.length →
    (∀ (i : Nat) a b, as[i]? = some a → bs[i]? = some b → flat a = flat b) → flatAll as = flatAll bs
  | [], [], _, _ => rfl
  | a :: as, b :: bs, hl, h => by
    rw [flatAll, flatAll, h 0 a b rfl rfl, flatAll_pointwise (by simpa using hl)
      fun i a b ha hb => h (i + 1) a b (by simpa using ha) (by simpa using hb)]

theorem flatEntries_pointwise : {as bs : List (String × Body)} → as.map (·.1) = bs.map (·.1) →
    (∀ (i : Nat) a b, as[i]? = some a → bs[i]? = some b → flat a.2 = flat b.2) →
    flatEntries as = flatEntries bs
  | [], [], _, _ => rfl
  | (k, a) :: as, (l, b) :: bs, hl, h => by
    simp at hl
    obtain ⟨rfl, hl⟩ := hl
    rw [flatEntries, flatEntries, h 0 (k, a) (k, b) rfl rfl, flatEntries_pointwise hl
      fun i a b ha hb => h (i + 1) a b (by simpa using ha) (by simpa using hb)]

theorem flatAll_uint8 : (bs : List UInt8) → flatAll (bs.map .uint8) = bs.map .uint8
  | [] => rfl
  | b :: bs => by simp [flatAll, flatAll_uint8 bs, flat]

theorem flatAll_boolean : (vs : List Bool) →
    flatAll (vs.map .boolean) = vs.map fun v => .uint8 (if v then 1 else 0)
  | [] => rfl
  | v :: vs => by simp [flatAll, flatAll_boolean vs, flat]

theorem Retold.flat {a b : Body} (h : Retold a b) : flat a = flat b := by
  induction h with
  | same b => rfl
  | trans _ _ h1 h2 => exact h1.trans h2
  | some _ h => rw [Spec.flat, Spec.flat, h]
  | array hl _ ih => rw [Spec.flat, Spec.flat, flatAll_pointwise hl ih]
  | map hk _ ih => rw [Spec.flat, Spec.flat, flatEntries_pointwise hk ih]
  | tuple hl _ ih => rw [Spec.flat, Spec.flat, flatAll_pointwise hl ih]
  | enum i _ h => rw [Spec.flat, Spec.flat, h]
  | boolean v => simp [Spec.flat]
  | string s => rw [Spec.flat, Spec.flat]
  | binary bs => rw [Spec.flat, Spec.flat, flatAll_uint8]
  | bytes bs => rw [Spec.flat, Spec.flat, flatAll_uint8]
  | bits vs s hs => rw [Spec.flat, Spec.flat, flatAll_boolean, hs, List.map_map]; rfl
  | unit => rw [Spec.flat, Spec.flat, flatAll]
  | empty => rw [Spec.flat, Spec.flat, flatAll]

/-- Types that can be counterparts have the same number. -/
def kindOf : Header → Nat
  | .unit => 0
  | .tuple _ => 0
  | .boolean => 1
  | .uint8 => 1
  | .string => 2
  | .binary => 2
  | .array _ => 2
  | .optional _ => 3
  | .uint16 => 4
  | .uint32 => 5
  | .uint64 => 6
  | .int8 => 7
  | .int16 => 8
  | .int32 => 9
  | .int64 => 10
  | .float32 => 11
  | .float64 => 12
  | .bigUInt => 13
  | .bigInt => 14
  | .bigDecimal => 15
  | .map _ => 16
  | .enum _ => 17
  | .date => 18
  | .dateTime => 19

/-- The same for values in common form. -/
def kind : Body → Nat
  | .unit => 0
  | .tuple _ => 0
  | .boolean _ => 1
  | .uint8 _ => 1
  | .string _ => 2
  | .binary _ => 2
  | .array _ => 2
  | .none => 3
  | .some _ => 3
  | .uint16 _ => 4
  | .uint32 _ => 5
  | .uint64 _ => 6
  | .int8 _ => 7
  | .int16 _ => 8
  | .int32 _ => 9
  | .int64 _ => 10
  | .float32 _ => 11
  | .float64 _ => 12
  | .bigUInt _ => 13
  | .bigInt _ => 14
  | .bigDecimal _ => 15
  | .map _ => 16
  | .enum _ _ => 17
  | .date _ => 18
  | .dateTime _ => 19

theorem kind_flat (b : Body) : kind (flat b) = kind b := by
  cases b <;> simp [flat, kind]

theorem kind_of {h : Header} {b : Body} (hv : Body.validate h b = true) : kind b = kindOf h := by
  rw [Body.validate_iff] at hv
  cases hv <;> rfl

/-! ## A value of every type -/

mutual
/-- Some value of the type. -/
def someValue : Header → Body
  | .unit => .unit
  | .optional _ => .none
  | .boolean => .boolean true
  | .uint8 => .uint8 7
  | .uint16 => .uint16 0
  | .uint32 => .uint32 0
  | .uint64 => .uint64 0
  | .int8 => .int8 0
  | .int16 => .int16 0
  | .int32 => .int32 0
  | .int64 => .int64 0
  | .float32 => .float32 0
  | .float64 => .float64 0
  | .bigUInt => .bigUInt ⟨[]⟩
  | .bigInt => .bigInt ⟨[]⟩
  | .bigDecimal => .bigDecimal ⟨[], 0⟩
  | .string => .string "a"
  | .binary => .binary [255]
  | .array _ => .array []
  | .tuple hs => .tuple (someValues hs)
  | .map _ => .map []
  | .enum [] => .unit
  | .enum (h :: _) => .enum 0 (someValue h)
  | .date => .date ⟨2000, 1⟩
  | .dateTime => .dateTime ⟨0, 0⟩
def someValues : List Header → List Body
  | [] => []
  | h :: hs => someValue h :: someValues hs
end

variable {t : Target} {mode : BuildMode}

/-- The values that count. -/
abbrev Counts (t : Target) (mode : BuildMode) (b : Body) : Prop := BodyOk t mode False False b

theorem bits_gt (t : Target) : 1 < 2 ^ t.ptr.bits := by
  cases t.ptr <;> decide

mutual
theorem someValue_meets : (h : Header) → .enum [] ∉ headerParts h →
    Body.validate h (someValue h) = true ∧ Counts t mode (someValue h)
  | .tuple hs, hf => by
    have := someValues_meets hs fun hc => hf (by rw [headerParts]; exact List.mem_cons_of_mem _ hc)
    rw [someValue]
    exact ⟨by simp [Body.validate, this.1, this.2.1], Derive.good_tuple this.2.2⟩
  | .enum [], hf => absurd (by rw [headerParts]; exact List.mem_cons_self) hf
  | .enum (h :: hs), hf => by
    have := someValue_meets h fun hc => hf (by
      rw [headerParts, headersParts]; exact List.mem_cons_of_mem _ (List.mem_append_left _ hc))
    rw [someValue]
    exact ⟨by simp [Body.validate, Body.validateNth, this.1], Derive.good_enum this.2⟩
  | .array h, _ => by
    rw [someValue]
    exact ⟨by simp [Body.validate], Derive.good_array (by simp; have := bits_gt t; omega) (by simp)⟩
  | .map h, _ => by
    rw [someValue]
    exact ⟨by simp [Body.validate], Derive.good_map (by simp; have := bits_gt t; omega) (by simp)
      .nil (by simp)⟩
  | .unit, _ => by
    rw [someValue]; exact ⟨rfl, Derive.good_unit⟩
  | .optional _, _ => by
    rw [someValue]
    exact ⟨by simp [Body.validate], BodyOk.of_parts (by simp [parts]) trivial (by simp) (by simp) (by simp)
      (by simp) (by simp) (by simp)⟩
  | .date, _ => by
    rw [someValue]
    exact ⟨rfl, BodyOk.of_parts (by simp [parts]) trivial (by simp) (by simp)
      (by rintro d h -; cases h; exact ⟨by decide, by decide⟩) (by simp) (by simp) (by simp)⟩
  | .bigDecimal, _ => by
    rw [someValue]
    exact ⟨rfl, BodyOk.of_parts (by simp [parts]) (by simp [LengthsFit]; have := bits_gt t; omega) (by simp)
      (by rintro d h -; cases h; rfl) (by simp) (by simp) (by simp) (by simp)⟩
  | .bigUInt, _ | .bigInt, _ | .binary, _ | .string, _ => by
    have := bits_gt t
    rw [someValue]
    exact ⟨rfl, BodyOk.of_parts (by simp [parts])
      (by first | (simp [LengthsFit]; omega) | (simp only [LengthsFit, show (utf8 "a").length = 1 by decide]; omega))
      (by simp) (by simp) (by simp) (by simp) (by simp) (by simp)⟩
  | .boolean, _ | .uint8, _ | .uint16, _ | .uint32, _ | .uint64, _ | .int8, _ | .int16, _ | .int32, _
  | .int64, _ | .float32, _ | .float64, _ | .dateTime, _ => by
    rw [someValue]
    exact ⟨rfl, BodyOk.of_parts (by simp [parts]) trivial (by simp) (by simp) (by simp)
      (by simp) (by simp) (by simp)⟩
theorem someValues_meets : (hs : List Header) → .enum [] ∉ headersParts hs →
    hs.length = (someValues hs).length ∧ Body.validateZip hs (someValues hs) = true ∧
      ∀ b ∈ someValues hs, Counts t mode b
  | [], _ => by simp [someValues, Body.validateZip]
  | h :: hs, hf => by
    have h1 := someValue_meets h fun hc => hf (by
      rw [headersParts]; exact List.mem_append_left _ hc)
    have h2 := someValues_meets hs fun hc => hf (by
      rw [headersParts]; exact List.mem_append_right _ hc)
    rw [someValues]
    exact ⟨by simp [h2.1], by simp [Body.validateZip, h1.1, h2.2.1], by
      intro b hb
      rcases List.mem_cons.mp hb with rfl | hb
      · exact h1.2
      · exact h2.2.2 b hb⟩
end

/-! ## Every counterpart makes the comparison succeed -/

theorem not_text (s : String) : utf8 s ≠ [255] := by
  intro h
  have := congrArg De.fromUtf8 h
  rw [De.fromUtf8_utf8, show De.fromUtf8 [255] = none by decide +kernel] at this
  simp at this

theorem flatAll_length : (bs : List Body) → (flatAll bs).length = bs.length
  | [] => rfl
  | b :: bs => by rw [flatAll, List.length_cons, List.length_cons, flatAll_length bs]

theorem flatAll_cons {b : Body} {bs xs : List Body} (h : flatAll xs = flat b :: bs) :
    ∃ y ys, xs = y :: ys ∧ flat b = flat y ∧ bs = flatAll ys := by
  cases xs with
  | nil => simp [flatAll] at h
  | cons y ys =>
    simp only [flatAll, List.cons.injEq] at h
    exact ⟨y, ys, rfl, h.1.symm, h.2.symm⟩

theorem kinds {a b : Header} (hf : .enum [] ∉ headerParts a)
    (h : ∀ x, Body.validate a x = true → Counts t mode x →
      ∃ y, Body.validate b y = true ∧ flat x = flat y) : kindOf a = kindOf b := by
  obtain ⟨w1, w2⟩ := someValue_meets (t := t) (mode := mode) a hf
  obtain ⟨y, hy, he⟩ := h _ w1 w2
  rw [← kind_of w1, ← kind_of hy, ← kind_flat, he, kind_flat]

theorem fine_array {x : Body} (h : Counts t mode x) : Counts t mode (.array [x]) :=
  Derive.good_array (by simpa using bits_gt t) (by simpa using h)

theorem fine_uint8 (v : UInt8) : Counts t mode (.uint8 v) :=
  BodyOk.of_parts (by simp [parts]) trivial (by simp) (by simp) (by simp) (by simp) (by simp) (by simp)

theorem fine_binary (v : UInt8) : Counts t mode (.binary [v]) :=
  BodyOk.of_parts (by simp [parts]) (by simpa [LengthsFit] using bits_gt t)
    (by simp) (by simp) (by simp) (by simp) (by simp) (by simp)

theorem map_uint8_one {bs : List UInt8} {b : Body} (h : [b] = bs.map .uint8) :
    ∃ c, b = .uint8 c ∧ bs = [c] := by
  match bs with
  | [] => simp at h
  | [c] => exact ⟨c, by simpa using h, rfl⟩
  | _ :: _ :: _ => simp at h

mutual
theorem hasGrown_of : (a b : Header) → .enum [] ∉ headerParts a → Countable a →
    (∀ x, Body.validate a x = true → Counts t mode x →
      ∃ y, Body.validate b y = true ∧ flat x = flat y) → hasGrown a b = true
  | .unit, b, hf, _, h => by
    have hk := kinds hf h
    cases b <;> simp [kindOf] at hk
    · rfl
    · obtain ⟨y, h1, h2⟩ := h .unit rfl Derive.good_unit
      rw [Body.validate_iff] at h1
      cases h1 with
      | tuple hs ys hl _ =>
        simp only [flat, Body.tuple.injEq] at h2
        have := congrArg List.length h2
        rw [flatAll_length, ← hl] at this
        simpa [hasGrown] using (List.length_eq_zero_iff.mp this.symm)
  | .tuple as, b, hf, hc, h => by
    have hk := kinds hf h
    have hf' : .enum [] ∉ headersParts as := fun hc => hf (by
      rw [headerParts]; exact List.mem_cons_of_mem _ hc)
    cases b <;> simp [kindOf] at hk
    · obtain ⟨w1, w2⟩ := someValue_meets (t := t) (mode := mode) (.tuple as) hf
      obtain ⟨y, h1, h2⟩ := h _ w1 w2
      rw [Body.validate_iff] at h1
      cases h1
      simp only [someValue, flat, Body.tuple.injEq] at h2
      have := congrArg List.length h2
      rw [flatAll_length, ← (someValues_meets (t := t) (mode := mode) as hf').1] at this
      simpa [hasGrown] using (List.length_eq_zero_iff.mp this)
    · rename_i bs
      rw [hasGrown]
      rw [Countable] at hc
      refine allGrown_of_values as bs hf' hc.2 fun xs h1 h2 h3 => ?_
      obtain ⟨y, h4, h5⟩ := h (.tuple xs) (by simp [Body.validate, h1, h2]) (Derive.good_tuple h3)
      cases y <;> simp only [Body.validate, Bool.false_eq_true, Bool.and_eq_true, beq_iff_eq] at h4
      simp only [flat, Body.tuple.injEq] at h5
      exact ⟨_, h4.1, h4.2, h5⟩
  | .enum as, b, hf, hc, h => by
    have hk := kinds hf h
    have hf' : .enum [] ∉ headersParts as := fun hc => hf (by
      rw [headerParts]; exact List.mem_cons_of_mem _ hc)
    cases b <;> simp [kindOf] at hk
    rename_i bs
    rw [hasGrown]
    rw [Countable] at hc
    refine variantsGrown_of_values as bs hf' hc.2 fun i x h1 h2 h3 => ?_
    have hi : (UInt32.ofNat i).toNat = i := by simp; omega
    obtain ⟨y, h4, h5⟩ := h (.enum (.ofNat i) x) (by simp only [Body.validate, hi]; exact h2)
      (Derive.good_enum h3)
    cases y <;> simp only [Body.validate, Bool.false_eq_true] at h4
    simp only [flat, Body.enum.injEq] at h5
    obtain ⟨rfl, h5⟩ := h5
    rw [hi] at h4
    exact ⟨_, h4, h5⟩
  | .optional a, b, hf, hc, h => by
    have hk := kinds hf h
    cases b <;> simp [kindOf] at hk
    rw [hasGrown]
    refine hasGrown_of a _ (fun hc => hf (by rw [headerParts]; exact List.mem_cons_of_mem _ hc))
      (by rwa [Countable] at hc) fun x h1 h2 => ?_
    obtain ⟨y, h3, h4⟩ := h (.some x) (by simpa [Body.validate] using h1) (Derive.good_some h2)
    cases y <;> simp only [Body.validate, Bool.false_eq_true, flat, reduceCtorEq, Body.some.injEq] at h3 h4
    exact ⟨_, h3, h4⟩
  | .map a, b, hf, hc, h => by
    have hk := kinds hf h
    cases b <;> simp [kindOf] at hk
    rw [hasGrown]
    refine hasGrown_of a _ (fun hc => hf (by rw [headerParts]; exact List.mem_cons_of_mem _ hc))
      (by rwa [Countable] at hc) fun x h1 h2 => ?_
    obtain ⟨y, h3, h4⟩ := h (.map [("", x)]) (by simpa [Body.validate] using h1)
      (Derive.good_map (by simpa using bits_gt t)
        (by simp [show utf8 "" = [] by rfl]; have := bits_gt t; omega)
        (by simp [Ascending]) (by simpa using h2))
    cases y <;> simp only [Body.validate, Bool.false_eq_true] at h3
    rename_i es
    match es with
    | [] => simp [flat, flatEntries] at h4
    | (k, y) :: es =>
      simp [flat, flatEntries] at h4
      simp at h3
      exact ⟨y, h3.1, h4.1.2⟩
  | .array a, b, hf, hc, h => by
    have hk := kinds hf h
    have hfa : .enum [] ∉ headerParts a := fun hc => hf (by
      rw [headerParts]; exact List.mem_cons_of_mem _ hc)
    have one : ∀ x, Body.validate a x = true → Counts t mode x →
        ∃ y, Body.validate b y = true ∧ .array [flat x] = flat y := by
      intro x h1 h2
      obtain ⟨y, h3, h4⟩ := h (.array [x]) (by simpa [Body.validate] using h1) (fine_array h2)
      exact ⟨y, h3, by simpa [flat, flatAll] using h4⟩
    cases b <;> simp [kindOf] at hk
    · obtain ⟨w1, w2⟩ := someValue_meets (t := t) (mode := mode) a hfa
      obtain ⟨y, h1, h2⟩ := one _ w1 w2
      rw [Body.validate_iff] at h1
      cases h1 with
      | string s =>
        simp only [flat, Body.array.injEq] at h2
        obtain ⟨c, h3, -⟩ := map_uint8_one h2
        have hka : kindOf a = 1 := by rw [← kind_of w1, ← kind_flat, h3]; rfl
        cases a <;> simp [kindOf] at hka
        · rfl
        · obtain ⟨y, h1, h2⟩ := one (.uint8 255) rfl (fine_uint8 _)
          rw [Body.validate_iff] at h1
          cases h1 with
          | string s =>
            simp only [flat, Body.array.injEq] at h2
            obtain ⟨c, h3, h4⟩ := map_uint8_one h2
            cases h3
            exact absurd h4 (not_text s)
    · obtain ⟨w1, w2⟩ := someValue_meets (t := t) (mode := mode) a hfa
      obtain ⟨y, h1, h2⟩ := one _ w1 w2
      rw [Body.validate_iff] at h1
      cases h1 with
      | binary bs =>
        simp only [flat, Body.array.injEq] at h2
        obtain ⟨c, h3, -⟩ := map_uint8_one h2
        have hka : kindOf a = 1 := by rw [← kind_of w1, ← kind_flat, h3]; rfl
        cases a <;> simp [kindOf] at hka <;> rfl
    · rw [hasGrown]
      refine hasGrown_of a _ hfa (by rwa [Countable] at hc) fun x h1 h2 => ?_
      obtain ⟨y, h3, h4⟩ := one x h1 h2
      cases y <;> simp only [Body.validate, Bool.false_eq_true] at h3
      simp only [flat, Body.array.injEq] at h4
      obtain ⟨y, ys, rfl, h5, -⟩ := flatAll_cons h4.symm
      simp at h3
      exact ⟨y, h3.1, h5⟩
  | .string, b, hf, _, h => by
    have hk := kinds hf h
    cases b <;> simp [kindOf] at hk
    · rfl
    · rfl
    · rename_i b
      obtain ⟨y, h1, h2⟩ := h _ (someValue_meets (t := t) (mode := mode) .string hf).1
        (someValue_meets .string hf).2
      cases y <;> simp only [Body.validate, Bool.false_eq_true] at h1
      simp only [someValue, flat, Body.array.injEq, show utf8 "a" = [97] by decide, List.map_cons,
        List.map_nil] at h2
      rw [show Body.uint8 97 = flat (.uint8 97) by simp [flat]] at h2
      obtain ⟨y, ys, rfl, h5, -⟩ := flatAll_cons h2.symm
      simp at h1
      have hb : kindOf b = 1 := by rw [← kind_of h1.1, ← kind_flat, ← h5]; rfl
      cases b <;> simp [kindOf] at hb
      · have h1 := h1.1
        rw [Body.validate_iff] at h1
        cases h1 with
        | boolean v => cases v <;> simp [flat] at h5
      · rfl
  | .binary, b, hf, _, h => by
    have hk := kinds hf h
    obtain ⟨y, h1, h2⟩ := h (.binary [255]) rfl (fine_binary _)
    cases b <;> simp [kindOf] at hk
    · rw [Body.validate_iff] at h1
      cases h1 with
      | string s =>
        simp only [flat, Body.array.injEq, List.map_cons, List.map_nil] at h2
        obtain ⟨c, h3, h4⟩ := map_uint8_one h2
        cases h3
        exact absurd h4 (not_text s)
    · rfl
    · rename_i b
      cases y <;> simp only [Body.validate, Bool.false_eq_true] at h1
      simp only [flat, Body.array.injEq, List.map_cons, List.map_nil] at h2
      rw [show Body.uint8 255 = flat (.uint8 255) by simp [flat]] at h2
      obtain ⟨y, ys, rfl, h5, -⟩ := flatAll_cons h2.symm
      simp at h1
      have hb : kindOf b = 1 := by rw [← kind_of h1.1, ← kind_flat, ← h5]; rfl
      cases b <;> simp [kindOf] at hb
      · have h1 := h1.1
        rw [Body.validate_iff] at h1
        cases h1 with
        | boolean v => cases v <;> simp [flat] at h5
      · rfl
  | .uint8, b, hf, _, h => by
    have hk := kinds hf h
    obtain ⟨y, h1, h2⟩ := h (.uint8 7) rfl (fine_uint8 _)
    cases b <;> simp [kindOf] at hk
    · rw [Body.validate_iff] at h1
      cases h1 with
      | boolean v => cases v <;> simp [flat] at h2
    · rfl
  | .boolean, b, hf, _, h | .uint16, b, hf, _, h | .uint32, b, hf, _, h | .uint64, b, hf, _, h
  | .int8, b, hf, _, h | .int16, b, hf, _, h | .int32, b, hf, _, h | .int64, b, hf, _, h
  | .float32, b, hf, _, h | .float64, b, hf, _, h | .bigUInt, b, hf, _, h | .bigInt, b, hf, _, h
  | .bigDecimal, b, hf, _, h | .date, b, hf, _, h | .dateTime, b, hf, _, h => by
    have hk := kinds hf h
    cases b <;> simp [kindOf] at hk <;> rfl
theorem allGrown_of_values : (as bs : List Header) → .enum [] ∉ headersParts as → AllCountable as →
    (∀ xs, as.length = xs.length → Body.validateZip as xs = true → (∀ x ∈ xs, Counts t mode x) →
      ∃ ys, bs.length = ys.length ∧ Body.validateZip bs ys = true ∧ flatAll xs = flatAll ys) →
    allGrown as bs = true
  | [], bs, _, _, h => by
    obtain ⟨ys, h1, -, h2⟩ := h [] rfl (by simp [Body.validateZip]) (by simp)
    have := congrArg List.length h2
    rw [flatAll_length, flatAll_length, ← h1] at this
    rw [List.length_eq_zero_iff.mp this.symm, allGrown]
  | a :: as, bs, hf, hc, h => by
    rw [AllCountable] at hc
    rw [headersParts, List.mem_append, not_or] at hf
    obtain ⟨w1, w2⟩ := someValue_meets (t := t) (mode := mode) a hf.1
    obtain ⟨w3, w4, w5⟩ := someValues_meets (t := t) (mode := mode) as hf.2
    have step : ∀ x xs, Body.validate a x = true → Counts t mode x → as.length = xs.length →
        Body.validateZip as xs = true → (∀ x ∈ xs, Counts t mode x) →
        ∃ b cs y ys, bs = b :: cs ∧ cs.length = ys.length ∧ Body.validate b y = true ∧
          Body.validateZip cs ys = true ∧ flat x = flat y ∧ flatAll xs = flatAll ys := by
      intro x xs h1 h2 h3 h4 h5
      obtain ⟨ys, g1, g2, g3⟩ := h (x :: xs) (by simp [h3]) (by simp [Body.validateZip, h1, h4])
        (fun z hz => (List.mem_cons.mp hz).elim (fun e => e ▸ h2) (h5 z))
      rw [flatAll] at g3
      obtain ⟨y, ys, rfl, g4, g5⟩ := flatAll_cons g3.symm
      cases bs with
      | nil => simp at g1
      | cons b cs =>
        simp only [Body.validateZip, Bool.and_eq_true] at g2
        exact ⟨b, cs, y, ys, rfl, by simpa using g1, g2.1, g2.2, g4, g5⟩
    obtain ⟨b, cs, -, -, rfl, -⟩ := step _ _ w1 w2 w3 w4 w5
    rw [allGrown, Bool.and_eq_true]
    refine ⟨hasGrown_of a b hf.1 hc.1 fun x h1 h2 => ?_,
      allGrown_of_values as cs hf.2 hc.2 fun xs h1 h2 h3 => ?_⟩
    · obtain ⟨b', cs', y, ys, e, -, g1, -, g2, -⟩ := step x _ h1 h2 w3 w4 w5
      cases e
      exact ⟨y, g1, g2⟩
    · obtain ⟨b', cs', y, ys, e, g1, -, g2, -, g3⟩ := step _ xs w1 w2 h1 h2 h3
      cases e
      exact ⟨ys, g1, g2, g3⟩
theorem variantsGrown_of_values : (as bs : List Header) → .enum [] ∉ headersParts as →
    AllCountable as →
    (∀ i x, i < as.length → Body.validateNth as i x = true → Counts t mode x →
      ∃ y, Body.validateNth bs i y = true ∧ flat x = flat y) →
    variantsGrown as bs = true
  | [], bs, _, _, h => by rw [variantsGrown]
  | a :: as, bs, hf, hc, h => by
    rw [AllCountable] at hc
    rw [headersParts, List.mem_append, not_or] at hf
    obtain ⟨w1, w2⟩ := someValue_meets (t := t) (mode := mode) a hf.1
    obtain ⟨y, h1, -⟩ := h 0 _ (by simp) (by simpa [Body.validateNth] using w1) w2
    cases bs with
    | nil => simp [Body.validateNth] at h1
    | cons b bs =>
      rw [variantsGrown, Bool.and_eq_true]
      refine ⟨hasGrown_of a b hf.1 hc.1 fun x h1 h2 => ?_,
        variantsGrown_of_values as bs hf.2 hc.2 fun i x h1 h2 h3 => ?_⟩
      · simpa [Body.validateNth] using h 0 x (by simp) (by simpa [Body.validateNth] using h1) h2
      · simpa [Body.validateNth] using h (i + 1) x (by simpa using h1)
          (by simpa [Body.validateNth] using h2) h3
end

end Dlhn.Spec
