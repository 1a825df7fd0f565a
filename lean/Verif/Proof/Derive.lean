import Verif.Spec.Derive
import Verif.Proof.Header
import Verif.Proof.Ser
/-! # Headers of types -/
namespace Dlhn.Derive

open Spec hiding variantFields

theorem any_items_iff (attrs : List Attr) (q : Attr → Bool) (p : Option String → Bool)
    (h : ∀ a, q a = (a.items.getD []).any p) :
    (attrs.any fun a => a.path == some "serde" && q a) = true ↔
    ∃ a ∈ attrs, a.path = some "serde" ∧ ∃ i ∈ a.items.getD [], p i = true := by
  rw [List.any_eq_true]
  refine exists_congr fun a => and_congr_right fun _ => ?_
  rw [Bool.and_eq_true, beq_iff_eq, h, List.any_eq_true]

theorem isSkipField_iff (attrs : List Attr) : isSkipField attrs = true ↔ Skipped attrs := by
  rw [isSkipField, any_items_iff attrs _ (fun i => i == some "skip" || i == some "skip_serializing")
    (fun a => by cases a.items <;> rfl), Skipped, HasSerdeItem, HasSerdeItem]
  constructor
  · rintro ⟨a, ha, hp, i, hi, h⟩
    rw [Bool.or_eq_true, beq_iff_eq, beq_iff_eq] at h
    rcases h with rfl | rfl
    · exact .inl ⟨a, ha, hp, hi⟩
    · exact .inr ⟨a, ha, hp, hi⟩
  · rintro (⟨a, ha, hp, hi⟩ | ⟨a, ha, hp, hi⟩)
    · exact ⟨a, ha, hp, _, hi, by simp⟩
    · exact ⟨a, ha, hp, _, hi, by simp⟩

theorem hasSkipSerializingIf_iff (attrs : List Attr) :
    hasSkipSerializingIf attrs = true ↔ Conditional attrs := by
  rw [hasSkipSerializingIf, any_items_iff attrs _ (fun i => i == some "skip_serializing_if")
    (fun a => by cases a.items <;> rfl), Conditional, HasSerdeItem]
  constructor
  · rintro ⟨a, ha, hp, i, hi, h⟩
    rw [beq_iff_eq] at h
    subst h
    exact ⟨a, ha, hp, hi⟩
  · rintro ⟨a, ha, hp, hi⟩
    exact ⟨a, ha, hp, _, hi, by simp⟩

theorem serdeSkips_iff (attrs : List Attr) : serdeSkips attrs = true ↔ Skipped attrs := by
  rw [← isSkipField_iff, serdeSkips, isSkipField,
    any_items_iff attrs _ (fun i => i == some "skip" || i == some "skip_serializing")
      (fun a => by cases a.items <;> rfl),
    any_items_iff attrs _ (fun i => i == some "skip" || i == some "skip_serializing")
      (fun a => by cases a.items <;> rfl)]

theorem exec_put (bs : List UInt8) : (put bs).exec = (bs, .ok ()) := by
  simp [put, WProg.exec]

theorem countBytes_eq (n : Nat) (h : n < 65536) : countBytes n = varint 16 n := by
  have := PrefixVarint.vecU16_eq (UInt16.ofNat n)
  rw [PrefixVarint.vecU16, UInt16.toNat_ofNat', Nat.mod_eq_of_lt h] at this
  exact this

theorem serializedTypes_skip {attrs : List Attr} {name : String} {T : RTy} {fs : List RField}
    (h : Skipped attrs) : serializedTypes (.mk attrs name T :: fs) = serializedTypes fs := by
  rw [serializedTypes, List.filter_cons, fieldAttrs, if_neg (fun hc => (of_decide_eq_true hc : ¬ Skipped attrs) h), serializedTypes]

theorem serializedTypes_keep {attrs : List Attr} {name : String} {T : RTy} {fs : List RField}
    (h : ¬ Skipped attrs) : serializedTypes (.mk attrs name T :: fs) = T :: serializedTypes fs := by
  rw [serializedTypes, List.filter_cons, fieldAttrs, if_pos (decide_eq_true h), List.map_cons,
    fieldType, serializedTypes]

/-- What `serializeHeader` yields for a described type. -/
abbrev Writes (r : Except CompileError (WProg IoErr)) (c : Prop) (bs : List UInt8) : Prop :=
  ∃ p, r = .ok p ∧ (c → p.exec = (bs, .ok ()))

theorem writes_put (bs : List UInt8) (c : Prop) : Writes (.ok (put bs)) c bs :=
  ⟨_, rfl, fun _ => exec_put bs⟩

theorem writes_wrap {r : Except CompileError (WProg IoErr)} {c : Prop} {bs : List UInt8}
    (b : UInt8) (h : Writes r c bs) :
    Writes (do pure ((put [b]).andThen (← r))) c (b :: bs) := by
  obtain ⟨p, rfl, hp⟩ := h
  refine ⟨_, rfl, fun hc => ?_⟩
  rw [WProg.exec_andThen_ok (exec_put _), hp hc]
  rfl

theorem describesAll_length {Ts : List RTy} {hs : List Header} (h : DescribesAll Ts hs) :
    hs.length = Ts.length := by
  induction Ts generalizing hs with
  | nil => cases h; rfl
  | cons T Ts ih => cases h with | cons _ _ h hs h1 h2 => simp [ih h2]

mutual
theorem writes_header : (T : RTy) → (h : Header) → Describes T h →
    Writes (serializeHeader T) (Countable h) (headerWire h)
  | .unit, _, .unit => by rw [serializeHeader]; exact writes_put _ _
  | .option T, _, .option _ h hd => by
    rw [serializeHeader]; exact writes_wrap _ (writes_header T h hd)
  | .bool, _, .bool => by rw [serializeHeader]; exact writes_put _ _
  | .u8, _, .u8 => by rw [serializeHeader]; exact writes_put _ _
  | .u16, _, .u16 => by rw [serializeHeader]; exact writes_put _ _
  | .u32, _, .u32 => by rw [serializeHeader]; exact writes_put _ _
  | .u64, _, .u64 => by rw [serializeHeader]; exact writes_put _ _
  | .i8, _, .i8 => by rw [serializeHeader]; exact writes_put _ _
  | .i16, _, .i16 => by rw [serializeHeader]; exact writes_put _ _
  | .i32, _, .i32 => by rw [serializeHeader]; exact writes_put _ _
  | .i64, _, .i64 => by rw [serializeHeader]; exact writes_put _ _
  | .f32, _, .f32 => by rw [serializeHeader]; exact writes_put _ _
  | .f64, _, .f64 => by rw [serializeHeader]; exact writes_put _ _
  | .bigUint, _, .bigUint => by rw [serializeHeader]; exact writes_put _ _
  | .numBigUint, _, .numBigUint => by rw [serializeHeader]; exact writes_put _ _
  | .bigInt, _, .bigInt => by rw [serializeHeader]; exact writes_put _ _
  | .numBigInt, _, .numBigInt => by rw [serializeHeader]; exact writes_put _ _
  | .bigDecimal, _, .bigDecimal => by rw [serializeHeader]; exact writes_put _ _
  | .numBigDecimal, _, .numBigDecimal => by rw [serializeHeader]; exact writes_put _ _
  | .str, _, .str => by rw [serializeHeader]; exact writes_put _ _
  | .string, _, .string => by rw [serializeHeader]; exact writes_put _ _
  | .bytes, _, .bytes => by rw [serializeHeader]; exact writes_put _ _
  | .byteBuf, _, .byteBuf => by rw [serializeHeader]; exact writes_put _ _
  | .vec T, _, .vec _ h hd => by
    rw [serializeHeader]; exact writes_wrap _ (writes_header T h hd)
  | .date, _, .date => by rw [serializeHeader]; exact writes_put _ _
  | .timeDate, _, .timeDate => by rw [serializeHeader]; exact writes_put _ _
  | .dateTime, _, .dateTime => by rw [serializeHeader]; exact writes_put _ _
  | .offsetDateTime, _, .offsetDateTime => by rw [serializeHeader]; exact writes_put _ _
  | .btreeMap T, _, .btreeMap _ h hd => by
    rw [serializeHeader]; exact writes_wrap _ (writes_header T h hd)
  | .hashMap T, _, .hashMap _ h hd => by
    rw [serializeHeader]; exact writes_wrap _ (writes_header T h hd)
  | .tuple Ts, _, .tuple _ hs h1 h2 hd => by
    obtain ⟨p, hp, hx⟩ := writes_headers Ts hs hd
    rw [serializeHeader, if_pos ⟨h1, h2⟩, hp]
    refine ⟨_, rfl, fun hc => ?_⟩
    rw [Countable] at hc
    rw [WProg.exec_andThen_ok (exec_put _), WProg.exec_andThen_ok (exec_put _), hx hc.2,
      ← describesAll_length hd, countBytes_eq _ hc.1]
    rfl
  | .struct name fields, _, .struct _ _ hs h1 hd => by
    have key : ∀ p : WProg IoErr, (AllCountable hs → p.exec = (headersWire hs, .ok ())) →
        Countable (.tuple hs) →
        ((put (TUPLE_CODE :: countBytes hs.length)).andThen p).exec = (headerWire (.tuple hs), .ok ()) := by
      intro p hx hc
      rw [Countable] at hc
      rw [WProg.exec_andThen_ok (exec_put _), hx hc.2, countBytes_eq _ hc.1]
      rfl
    cases fields with
    | named fs =>
      obtain ⟨p, hp, hx⟩ := writes_struct fs hs h1 hd
      rw [serializeHeader, structFields, hp]
      exact ⟨_, rfl, key p hx⟩
    | unnamed fs =>
      obtain ⟨p, hp, hx⟩ := writes_struct fs hs h1 hd
      rw [serializeHeader, structFields, hp]
      exact ⟨_, rfl, key p hx⟩
    | unit =>
      cases hd
      rw [serializeHeader, structFields]
      exact ⟨_, rfl, key .skip fun _ => rfl⟩
  | .enum name vs, _, .enum _ _ hs h1 hd => by
    obtain ⟨p, hp, hx⟩ := writes_variants vs hs h1 hd
    rw [serializeHeader, hp]
    refine ⟨_, rfl, fun hc => ?_⟩
    rw [Countable] at hc
    rw [WProg.exec_andThen_ok (exec_put _), hx hc.2, countBytes_eq _ hc.1]
    rfl
theorem writes_headers : (Ts : List RTy) → (hs : List Header) → DescribesAll Ts hs →
    Writes (serializeHeaders Ts) (AllCountable hs) (headersWire hs)
  | [], _, .nil => ⟨.skip, by rw [serializeHeaders]; rfl, fun _ => rfl⟩
  | T :: Ts, _, .cons _ _ h hs hd hds => by
    obtain ⟨p, hp, hx⟩ := writes_header T h hd
    obtain ⟨q, hq, hy⟩ := writes_headers Ts hs hds
    rw [serializeHeaders, hp, hq]
    refine ⟨_, rfl, fun hc => ?_⟩
    rw [AllCountable] at hc
    rw [WProg.exec_andThen_ok (hx hc.1), hy hc.2]
    rfl
theorem writes_struct : (fs : List RField) → (hs : List Header) →
    (∀ f ∈ fs, ¬ Conditional (fieldAttrs f)) → DescribesAll (serializedTypes fs) hs →
    ∃ p, structTypes fs = .ok (hs.length, p) ∧
      (AllCountable hs → p.exec = (headersWire hs, .ok ()))
  | [], hs, _, hd => by
    cases hd
    exact ⟨.skip, by rw [structTypes]; rfl, fun _ => rfl⟩
  | .mk attrs name T :: fs, hs, h1, hd => by
    have h2 : hasSkipSerializingIf attrs = false := by
      rw [Bool.eq_false_iff, Ne, hasSkipSerializingIf_iff]
      exact h1 _ List.mem_cons_self
    have h3 : ∀ f ∈ fs, ¬ Conditional (fieldAttrs f) := fun f hf => h1 f (by simp [hf])
    rw [structTypes, h2]
    by_cases hs' : Skipped attrs
    · rw [serializedTypes_skip hs'] at hd
      obtain ⟨p, hp, hx⟩ := writes_struct fs hs h3 hd
      rw [if_neg (by decide), if_pos ((isSkipField_iff attrs).mpr hs')]
      exact ⟨p, hp, hx⟩
    · rw [serializedTypes_keep hs'] at hd
      cases hd with
      | cons _ _ h hs hd hds =>
        obtain ⟨p, hp, hx⟩ := writes_header T h hd
        obtain ⟨q, hq, hy⟩ := writes_struct fs hs h3 hds
        rw [if_neg (by decide), if_neg (by rw [isSkipField_iff]; exact hs'), hp, hq]
        refine ⟨_, rfl, fun hc => ?_⟩
        rw [AllCountable] at hc
        rw [WProg.exec_andThen_ok (hx hc.1), hy hc.2]
        rfl
theorem writes_variants : (vs : List RVariant) → (hs : List Header) →
    (∀ v ∈ vs, ¬ Conditional (variantAttrs v)) →
    DescribesPayloads ((vs.filter fun v => ¬ Skipped (variantAttrs v)).map
      fun v => (Spec.variantFields v).map fieldType) hs →
    ∃ p, enumVariants vs = .ok (hs.length, p) ∧
      (AllCountable hs → p.exec = (headersWire hs, .ok ()))
  | [], hs, _, hd => by
    cases hd
    exact ⟨.skip, by rw [enumVariants]; rfl, fun _ => rfl⟩
  | .mk attrs name fields :: vs, hs, h1, hd => by
    have h2 : hasSkipSerializingIf attrs = false := by
      rw [Bool.eq_false_iff, Ne, hasSkipSerializingIf_iff]
      exact h1 _ List.mem_cons_self
    have h3 : ∀ v ∈ vs, ¬ Conditional (variantAttrs v) := fun f hf => h1 f (by simp [hf])
    rw [enumVariants, h2]
    by_cases hs' : Skipped attrs
    · rw [List.filter_cons, variantAttrs, if_neg (fun hc => (of_decide_eq_true hc : ¬ Skipped attrs) hs')] at hd
      obtain ⟨p, hp, hx⟩ := writes_variants vs hs h3 hd
      rw [if_neg (by decide), if_pos ((isSkipField_iff attrs).mpr hs')]
      exact ⟨p, hp, hx⟩
    · rw [List.filter_cons, variantAttrs, if_pos (decide_eq_true hs'), List.map_cons] at hd
      cases hd with
      | cons _ _ h hs hd hds =>
        obtain ⟨p, hp, hx⟩ : Writes (variantFields fields) (Countable h) (headerWire h) := by
          cases fields with
          | named fs => rw [variantFields]; exact writes_payload fs h hd
          | unnamed fs => rw [variantFields]; exact writes_payload fs h hd
          | unit =>
            have := writes_payload [] h hd
            rw [variantTypes] at this
            rw [variantFields]
            exact this
        obtain ⟨q, hq, hy⟩ := writes_variants vs hs h3 hds
        rw [if_neg (by decide), if_neg (by rw [isSkipField_iff]; exact hs'), hp, hq]
        refine ⟨_, rfl, fun hc => ?_⟩
        rw [AllCountable] at hc
        rw [WProg.exec_andThen_ok (hx hc.1), hy hc.2]
        rfl
theorem writes_payload : (fs : List RField) → (h : Header) →
    DescribesPayload (fs.map fieldType) h → Writes (variantTypes fs) (Countable h) (headerWire h)
  | [], h, hd => by
    cases hd with
    | none => rw [variantTypes]; exact ⟨_, rfl, fun _ => by rw [WProg.exec_andThen_ok (exec_put _), exec_put]; rfl⟩
    | many _ hs h2 _ => simp at h2
  | [.mk _ _ T], h, hd => by
    cases hd with
    | one _ _ hd =>
      obtain ⟨p, hp, hx⟩ := writes_header T h hd
      rw [variantTypes, fieldTypes, hp, fieldTypes]
      refine ⟨_, rfl, fun hc => ?_⟩
      rw [WProg.exec_andThen_ok (exec_put _), WProg.exec_andThen_ok (hx hc)]
      simp [WProg.exec, WProg.skip]
    | many _ hs h2 _ => simp at h2
  | f :: g :: fs, h, hd => by
    have key : ∀ hs, DescribesAll ((f :: g :: fs).map fieldType) hs →
        Writes (variantTypes (f :: g :: fs)) (Countable (.tuple hs)) (headerWire (.tuple hs)) := by
      intro hs hd
      obtain ⟨p, hp, hx⟩ := writes_fields (f :: g :: fs) hs hd
      rw [variantTypes, hp]
      refine ⟨_, rfl, fun hc => ?_⟩
      rw [Countable] at hc
      have hl : (f :: g :: fs).length = hs.length := by
        rw [describesAll_length hd, List.length_map]
      rw [WProg.exec_andThen_ok (exec_put _), hx hc.2, hl, countBytes_eq _ hc.1]
      rfl
    cases hd with
    | many _ hs _ hd => exact key hs hd
theorem writes_fields : (fs : List RField) → (hs : List Header) →
    DescribesAll (fs.map fieldType) hs →
    Writes (fieldTypes fs) (AllCountable hs) (headersWire hs)
  | [], _, .nil => ⟨.skip, by rw [fieldTypes]; rfl, fun _ => rfl⟩
  | .mk _ _ T :: fs, _, .cons _ _ h hs hd hds => by
    obtain ⟨p, hp, hx⟩ := writes_header T h hd
    obtain ⟨q, hq, hy⟩ := writes_fields fs hs hds
    rw [fieldTypes, hp, hq]
    refine ⟨_, rfl, fun hc => ?_⟩
    rw [AllCountable] at hc
    rw [WProg.exec_andThen_ok (hx hc.1), hy hc.2]
    rfl
end

/-! ## The accepted types are the described ones -/

theorem bind_ok {ε α β : Type} {x : Except ε α} {f : α → Except ε β} {r : β}
    (h : x >>= f = .ok r) : ∃ a, x = .ok a ∧ f a = .ok r := by
  cases x with
  | error e => cases h
  | ok a => exact ⟨a, rfl, h⟩

mutual
theorem described : (T : RTy) → (p : WProg IoErr) → serializeHeader T = .ok p → ∃ h, Describes T h
  | .unit, _, _ => ⟨_, .unit⟩
  | .option T, p, hp => by
    rw [serializeHeader] at hp
    obtain ⟨q, hq, -⟩ := bind_ok hp
    obtain ⟨h, hd⟩ := described T q hq
    exact ⟨_, .option _ _ hd⟩
  | .bool, _, _ => ⟨_, .bool⟩
  | .u8, _, _ => ⟨_, .u8⟩
  | .u16, _, _ => ⟨_, .u16⟩
  | .u32, _, _ => ⟨_, .u32⟩
  | .u64, _, _ => ⟨_, .u64⟩
  | .i8, _, _ => ⟨_, .i8⟩
  | .i16, _, _ => ⟨_, .i16⟩
  | .i32, _, _ => ⟨_, .i32⟩
  | .i64, _, _ => ⟨_, .i64⟩
  | .f32, _, _ => ⟨_, .f32⟩
  | .f64, _, _ => ⟨_, .f64⟩
  | .bigUint, _, _ => ⟨_, .bigUint⟩
  | .numBigUint, _, _ => ⟨_, .numBigUint⟩
  | .bigInt, _, _ => ⟨_, .bigInt⟩
  | .numBigInt, _, _ => ⟨_, .numBigInt⟩
  | .bigDecimal, _, _ => ⟨_, .bigDecimal⟩
  | .numBigDecimal, _, _ => ⟨_, .numBigDecimal⟩
  | .str, _, _ => ⟨_, .str⟩
  | .string, _, _ => ⟨_, .string⟩
  | .bytes, _, _ => ⟨_, .bytes⟩
  | .byteBuf, _, _ => ⟨_, .byteBuf⟩
  | .vec T, p, hp => by
    rw [serializeHeader] at hp
    obtain ⟨q, hq, -⟩ := bind_ok hp
    obtain ⟨h, hd⟩ := described T q hq
    exact ⟨_, .vec _ _ hd⟩
  | .date, _, _ => ⟨_, .date⟩
  | .timeDate, _, _ => ⟨_, .timeDate⟩
  | .dateTime, _, _ => ⟨_, .dateTime⟩
  | .offsetDateTime, _, _ => ⟨_, .offsetDateTime⟩
  | .btreeMap T, p, hp => by
    rw [serializeHeader] at hp
    obtain ⟨q, hq, -⟩ := bind_ok hp
    obtain ⟨h, hd⟩ := described T q hq
    exact ⟨_, .btreeMap _ _ hd⟩
  | .hashMap T, p, hp => by
    rw [serializeHeader] at hp
    obtain ⟨q, hq, -⟩ := bind_ok hp
    obtain ⟨h, hd⟩ := described T q hq
    exact ⟨_, .hashMap _ _ hd⟩
  | .tuple Ts, p, hp => by
    rw [serializeHeader] at hp
    split at hp
    · rename_i hl
      obtain ⟨q, hq, -⟩ := bind_ok hp
      obtain ⟨hs, hd⟩ := described_all Ts q hq
      exact ⟨_, .tuple _ _ hl.1 hl.2 hd⟩
    · cases hp
  | .struct name fields, p, hp => by
    cases fields with
    | named fs =>
      rw [serializeHeader, structFields] at hp
      obtain ⟨⟨n, q⟩, hq, -⟩ := bind_ok hp
      obtain ⟨hc, hs, hd⟩ := described_struct fs n q hq
      exact ⟨_, .struct _ _ hs hc hd⟩
    | unnamed fs =>
      rw [serializeHeader, structFields] at hp
      obtain ⟨⟨n, q⟩, hq, -⟩ := bind_ok hp
      obtain ⟨hc, hs, hd⟩ := described_struct fs n q hq
      exact ⟨_, .struct _ _ hs hc hd⟩
    | unit => exact ⟨_, .struct _ _ [] (by simp [declared]) .nil⟩
  | .enum name vs, p, hp => by
    rw [serializeHeader] at hp
    obtain ⟨⟨n, q⟩, hq, -⟩ := bind_ok hp
    obtain ⟨hc, hs, hd⟩ := described_variants vs n q hq
    exact ⟨_, .enum _ _ hs hc hd⟩
  | .union _, p, hp => by rw [serializeHeader] at hp; cases hp
  | .foreign, p, hp => by rw [serializeHeader] at hp; cases hp
theorem described_all : (Ts : List RTy) → (p : WProg IoErr) → serializeHeaders Ts = .ok p →
    ∃ hs, DescribesAll Ts hs
  | [], _, _ => ⟨_, .nil⟩
  | T :: Ts, p, hp => by
    rw [serializeHeaders] at hp
    obtain ⟨q, hq, hr⟩ := bind_ok hp
    obtain ⟨r, hr, -⟩ := bind_ok hr
    obtain ⟨h, hd⟩ := described T q hq
    obtain ⟨hs, hds⟩ := described_all Ts r hr
    exact ⟨_, .cons _ _ _ _ hd hds⟩
theorem described_struct : (fs : List RField) → (n : Nat) → (p : WProg IoErr) →
    structTypes fs = .ok (n, p) →
    (∀ f ∈ fs, ¬ Conditional (fieldAttrs f)) ∧ ∃ hs, DescribesAll (serializedTypes fs) hs
  | [], _, _, _ => ⟨by simp, _, .nil⟩
  | .mk attrs name T :: fs, n, p, hp => by
    rw [structTypes] at hp
    by_cases hc : Conditional attrs
    · rw [if_pos ((hasSkipSerializingIf_iff attrs).mpr hc)] at hp
      cases hp
    rw [if_neg (by rw [hasSkipSerializingIf_iff]; exact hc)] at hp
    have hcs : ∀ {n p}, structTypes fs = .ok (n, p) →
        ∀ f ∈ RField.mk attrs name T :: fs, ¬ Conditional (fieldAttrs f) := by
      intro n p h f hf
      rcases List.mem_cons.mp hf with rfl | hf
      · exact hc
      · exact (described_struct fs n p h).1 f hf
    by_cases hs' : Skipped attrs
    · rw [if_pos ((isSkipField_iff attrs).mpr hs')] at hp
      rw [serializedTypes_skip hs']
      exact ⟨hcs hp, (described_struct fs n p hp).2⟩
    · rw [if_neg (by rw [isSkipField_iff]; exact hs')] at hp
      obtain ⟨q, hq, hr⟩ := bind_ok hp
      obtain ⟨⟨m, r⟩, hr, -⟩ := bind_ok hr
      obtain ⟨h, hd⟩ := described T q hq
      obtain ⟨_, hs, hds⟩ := described_struct fs m r hr
      rw [serializedTypes_keep hs']
      exact ⟨hcs hr, _, .cons _ _ _ _ hd hds⟩
theorem described_variants : (vs : List RVariant) → (n : Nat) → (p : WProg IoErr) →
    enumVariants vs = .ok (n, p) →
    (∀ v ∈ vs, ¬ Conditional (variantAttrs v)) ∧
    ∃ hs, DescribesPayloads ((vs.filter fun v => ¬ Skipped (variantAttrs v)).map
      fun v => (Spec.variantFields v).map fieldType) hs
  | [], _, _, _ => ⟨by simp, _, .nil⟩
  | .mk attrs name fields :: vs, n, p, hp => by
    rw [enumVariants] at hp
    by_cases hc : Conditional attrs
    · rw [if_pos ((hasSkipSerializingIf_iff attrs).mpr hc)] at hp
      cases hp
    rw [if_neg (by rw [hasSkipSerializingIf_iff]; exact hc)] at hp
    have hcs : ∀ {n p}, enumVariants vs = .ok (n, p) →
        ∀ v ∈ RVariant.mk attrs name fields :: vs, ¬ Conditional (variantAttrs v) := by
      intro n p h f hf
      rcases List.mem_cons.mp hf with rfl | hf
      · exact hc
      · exact (described_variants vs n p h).1 f hf
    rw [List.filter_cons, variantAttrs]
    by_cases hs' : Skipped attrs
    · rw [if_pos ((isSkipField_iff attrs).mpr hs')] at hp
      rw [if_neg (fun hc => (of_decide_eq_true hc : ¬ Skipped attrs) hs')]
      exact ⟨hcs hp, (described_variants vs n p hp).2⟩
    · rw [if_neg (by rw [isSkipField_iff]; exact hs')] at hp
      obtain ⟨q, hq, hr⟩ := bind_ok hp
      obtain ⟨⟨m, r⟩, hr, -⟩ := bind_ok hr
      obtain ⟨h, hd⟩ : ∃ h, DescribesPayload ((declared fields).map fieldType) h := by
        cases fields with
        | named fs => rw [variantFields] at hq; exact described_payload fs q hq
        | unnamed fs => rw [variantFields] at hq; exact described_payload fs q hq
        | unit => exact ⟨_, .none⟩
      obtain ⟨_, hs, hds⟩ := described_variants vs m r hr
      rw [if_pos (decide_eq_true hs'), List.map_cons]
      exact ⟨hcs hr, _, .cons _ _ _ _ hd hds⟩
theorem described_payload : (fs : List RField) → (p : WProg IoErr) → variantTypes fs = .ok p →
    ∃ h, DescribesPayload (fs.map fieldType) h
  | [], _, _ => ⟨_, .none⟩
  | [.mk _ _ T], p, hp => by
    rw [variantTypes, fieldTypes] at hp
    obtain ⟨q, hq, -⟩ := bind_ok hp
    obtain ⟨q, hq, -⟩ := bind_ok hq
    obtain ⟨h, hd⟩ := described T q hq
    exact ⟨_, .one _ _ hd⟩
  | f :: g :: fs, p, hp => by
    rw [variantTypes] at hp
    obtain ⟨q, hq, -⟩ := bind_ok hp
    obtain ⟨hs, hd⟩ := described_fields (f :: g :: fs) q hq
    exact ⟨_, .many _ _ (by simp) hd⟩
theorem described_fields : (fs : List RField) → (p : WProg IoErr) → fieldTypes fs = .ok p →
    ∃ hs, DescribesAll (fs.map fieldType) hs
  | [], _, _ => ⟨_, .nil⟩
  | .mk _ _ T :: fs, p, hp => by
    rw [fieldTypes] at hp
    obtain ⟨q, hq, hr⟩ := bind_ok hp
    obtain ⟨r, hr, -⟩ := bind_ok hr
    obtain ⟨h, hd⟩ := described T q hq
    obtain ⟨hs, hds⟩ := described_fields fs r hr
    exact ⟨_, .cons _ _ _ _ hd hds⟩
end

mutual
/-- A type has at most one header. -/
theorem describes_unique : {T : RTy} → {h k : Header} → Describes T h → Describes T k → h = k
  | .unit, _, _, .unit, .unit => rfl
  | .option _, _, _, .option _ _ a, .option _ _ b => by rw [describes_unique a b]
  | .bool, _, _, .bool, .bool => rfl
  | .u8, _, _, .u8, .u8 => rfl
  | .u16, _, _, .u16, .u16 => rfl
  | .u32, _, _, .u32, .u32 => rfl
  | .u64, _, _, .u64, .u64 => rfl
  | .i8, _, _, .i8, .i8 => rfl
  | .i16, _, _, .i16, .i16 => rfl
  | .i32, _, _, .i32, .i32 => rfl
  | .i64, _, _, .i64, .i64 => rfl
  | .f32, _, _, .f32, .f32 => rfl
  | .f64, _, _, .f64, .f64 => rfl
  | .bigUint, _, _, .bigUint, .bigUint => rfl
  | .numBigUint, _, _, .numBigUint, .numBigUint => rfl
  | .bigInt, _, _, .bigInt, .bigInt => rfl
  | .numBigInt, _, _, .numBigInt, .numBigInt => rfl
  | .bigDecimal, _, _, .bigDecimal, .bigDecimal => rfl
  | .numBigDecimal, _, _, .numBigDecimal, .numBigDecimal => rfl
  | .str, _, _, .str, .str => rfl
  | .string, _, _, .string, .string => rfl
  | .bytes, _, _, .bytes, .bytes => rfl
  | .byteBuf, _, _, .byteBuf, .byteBuf => rfl
  | .vec _, _, _, .vec _ _ a, .vec _ _ b => by rw [describes_unique a b]
  | .date, _, _, .date, .date => rfl
  | .timeDate, _, _, .timeDate, .timeDate => rfl
  | .dateTime, _, _, .dateTime, .dateTime => rfl
  | .offsetDateTime, _, _, .offsetDateTime, .offsetDateTime => rfl
  | .btreeMap _, _, _, .btreeMap _ _ a, .btreeMap _ _ b => by rw [describes_unique a b]
  | .hashMap _, _, _, .hashMap _ _ a, .hashMap _ _ b => by rw [describes_unique a b]
  | .tuple _, _, _, .tuple _ _ _ _ a, .tuple _ _ _ _ b => by rw [describesAll_unique a b]
  | .struct _ _, _, _, .struct _ _ _ _ a, .struct _ _ _ _ b => by rw [describesAll_unique a b]
  | .enum _ _, _, _, .enum _ _ _ _ a, .enum _ _ _ _ b => by rw [describesPayloads_unique a b]
theorem describesAll_unique : {Ts : List RTy} → {hs ks : List Header} → DescribesAll Ts hs →
    DescribesAll Ts ks → hs = ks
  | [], _, _, .nil, .nil => rfl
  | _ :: _, _, _, .cons _ _ _ _ a b, .cons _ _ _ _ c d => by
    rw [describes_unique a c, describesAll_unique b d]
theorem describesPayload_unique : {Ts : List RTy} → {h k : Header} → DescribesPayload Ts h →
    DescribesPayload Ts k → h = k
  | [], _, _, .none, .none => rfl
  | [], _, _, .none, .many _ _ h _ => by simp at h
  | [], _, _, .many _ _ h _, _ => by simp at h
  | [_], _, _, .one _ _ a, .one _ _ b => describes_unique a b
  | [_], _, _, .one _ _ _, .many _ _ h _ => by simp at h
  | [_], _, _, .many _ _ h _, _ => by simp at h
  | _ :: _ :: _, _, _, .many _ _ _ a, .many _ _ _ b => by rw [describesAll_unique a b]
theorem describesPayloads_unique : {Tss : List (List RTy)} → {hs ks : List Header} →
    DescribesPayloads Tss hs → DescribesPayloads Tss ks → hs = ks
  | [], _, _, .nil, .nil => rfl
  | _ :: _, _, _, .cons _ _ _ _ a b, .cons _ _ _ _ c d => by
    rw [describesPayload_unique a c, describesPayloads_unique b d]
end

/-! ## Built-in types -/

mutual
theorem builtIn_described : (T : RTy) → (∀ U ∈ typeParts T, BuiltInPart U) →
    ∃ h, Describes T h ∧ Countable h
  | .unit, _ => ⟨_, .unit, trivial⟩
  | .option T, hb => by
    obtain ⟨h, hd, hc⟩ := builtIn_described T fun U hU => hb U (by simp [typeParts, hU])
    exact ⟨_, .option _ _ hd, by rw [Countable]; exact hc⟩
  | .bool, _ => ⟨_, .bool, trivial⟩
  | .u8, _ => ⟨_, .u8, trivial⟩
  | .u16, _ => ⟨_, .u16, trivial⟩
  | .u32, _ => ⟨_, .u32, trivial⟩
  | .u64, _ => ⟨_, .u64, trivial⟩
  | .i8, _ => ⟨_, .i8, trivial⟩
  | .i16, _ => ⟨_, .i16, trivial⟩
  | .i32, _ => ⟨_, .i32, trivial⟩
  | .i64, _ => ⟨_, .i64, trivial⟩
  | .f32, _ => ⟨_, .f32, trivial⟩
  | .f64, _ => ⟨_, .f64, trivial⟩
  | .bigUint, _ => ⟨_, .bigUint, trivial⟩
  | .numBigUint, _ => ⟨_, .numBigUint, trivial⟩
  | .bigInt, _ => ⟨_, .bigInt, trivial⟩
  | .numBigInt, _ => ⟨_, .numBigInt, trivial⟩
  | .bigDecimal, _ => ⟨_, .bigDecimal, trivial⟩
  | .numBigDecimal, _ => ⟨_, .numBigDecimal, trivial⟩
  | .str, _ => ⟨_, .str, trivial⟩
  | .string, _ => ⟨_, .string, trivial⟩
  | .bytes, _ => ⟨_, .bytes, trivial⟩
  | .byteBuf, _ => ⟨_, .byteBuf, trivial⟩
  | .vec T, hb => by
    obtain ⟨h, hd, hc⟩ := builtIn_described T fun U hU => hb U (by simp [typeParts, hU])
    exact ⟨_, .vec _ _ hd, by rw [Countable]; exact hc⟩
  | .date, _ => ⟨_, .date, trivial⟩
  | .timeDate, _ => ⟨_, .timeDate, trivial⟩
  | .dateTime, _ => ⟨_, .dateTime, trivial⟩
  | .offsetDateTime, _ => ⟨_, .offsetDateTime, trivial⟩
  | .btreeMap T, hb => by
    obtain ⟨h, hd, hc⟩ := builtIn_described T fun U hU => hb U (by simp [typeParts, hU])
    exact ⟨_, .btreeMap _ _ hd, by rw [Countable]; exact hc⟩
  | .hashMap T, hb => by
    obtain ⟨h, hd, hc⟩ := builtIn_described T fun U hU => hb U (by simp [typeParts, hU])
    exact ⟨_, .hashMap _ _ hd, by rw [Countable]; exact hc⟩
  | .tuple Ts, hb => by
    obtain ⟨hs, hd, hc⟩ := builtIn_described_all Ts fun U hU => hb U (by simp [typeParts, hU])
    have hl : 1 ≤ Ts.length ∧ Ts.length ≤ 16 := hb (.tuple Ts) (by simp [typeParts])
    refine ⟨_, .tuple _ _ hl.1 hl.2 hd, ?_⟩
    rw [Countable, describesAll_length hd]
    exact ⟨by omega, hc⟩
  | .struct name fields, hb => (hb (.struct name fields) (by cases fields <;> simp [typeParts])).elim
  | .enum name vs, hb => (hb (.enum name vs) (by simp [typeParts])).elim
  | .union name, hb => (hb (.union name) (by simp [typeParts])).elim
  | .foreign, hb => (hb .foreign (by simp [typeParts])).elim
theorem builtIn_described_all : (Ts : List RTy) → (∀ U ∈ typePartsAll Ts, BuiltInPart U) →
    ∃ hs, DescribesAll Ts hs ∧ AllCountable hs
  | [], _ => ⟨_, .nil, trivial⟩
  | T :: Ts, hb => by
    obtain ⟨h, hd, hc⟩ := builtIn_described T fun U hU => hb U (by simp [typePartsAll, hU])
    obtain ⟨hs, hds, hcs⟩ := builtIn_described_all Ts fun U hU => hb U (by simp [typePartsAll, hU])
    exact ⟨_, .cons _ _ _ _ hd hds, by rw [AllCountable]; exact ⟨hc, hcs⟩⟩
end

/-! ## Counts beyond 65535 -/

theorem countBytes_mod (n : Nat) : countBytes n = varint 16 (n % 65536) := by
  have := PrefixVarint.vecU16_eq (UInt16.ofNat n)
  rw [PrefixVarint.vecU16, UInt16.toNat_ofNat'] at this
  exact this

theorem writes_struct_any (name : String) (fields : RFields) (hs : List Header)
    (h1 : ∀ f ∈ declared fields, ¬ Conditional (fieldAttrs f))
    (hd : DescribesAll (serializedTypes (declared fields)) hs) (hc : AllCountable hs) :
    ∃ p, serializeHeader (.struct name fields) = .ok p ∧
      p.exec = (21 :: (varint 16 (hs.length % 65536) ++ headersWire hs), .ok ()) := by
  have key : ∀ p : WProg IoErr, p.exec = (headersWire hs, .ok ()) →
      ((put (TUPLE_CODE :: countBytes hs.length)).andThen p).exec =
        (21 :: (varint 16 (hs.length % 65536) ++ headersWire hs), .ok ()) := by
    intro p hx
    rw [WProg.exec_andThen_ok (exec_put _), hx, countBytes_mod]
    rfl
  cases fields with
  | named fs =>
    obtain ⟨p, hp, hx⟩ := writes_struct fs hs h1 hd
    rw [serializeHeader, structFields, hp]
    exact ⟨_, rfl, key p (hx hc)⟩
  | unnamed fs =>
    obtain ⟨p, hp, hx⟩ := writes_struct fs hs h1 hd
    rw [serializeHeader, structFields, hp]
    exact ⟨_, rfl, key p (hx hc)⟩
  | unit =>
    cases hd
    rw [serializeHeader, structFields]
    exact ⟨_, rfl, key .skip rfl⟩

/-! ## Positions -/

theorem payloads_length {Tss : List (List RTy)} {hs : List Header} (h : DescribesPayloads Tss hs) :
    hs.length = Tss.length := by
  induction Tss generalizing hs with
  | nil => cases h; rfl
  | cons T Ts ih => cases h with | cons _ _ h hs h1 h2 => simp [ih h2]

theorem payloads_get {Tss : List (List RTy)} {hs : List Header} (h : DescribesPayloads Tss hs)
    {i : Nat} {Ts : List RTy} (hi : Tss[i]? = some Ts) : ∃ k, hs[i]? = some k ∧ DescribesPayload Ts k := by
  induction Tss generalizing hs i with
  | nil => simp at hi
  | cons T Tss ih =>
    cases h with
    | cons _ _ h hs h1 h2 =>
      cases i with
      | zero => simp at hi; subst hi; exact ⟨h, rfl, h1⟩
      | succ i => exact ih h2 (by simpa using hi)

theorem payloads_of_get {Tss : List (List RTy)} {hs : List Header} (hl : hs.length = Tss.length)
    (h : ∀ (i : Nat) (Ts : List RTy) (k : Header), Tss[i]? = some Ts → hs[i]? = some k → DescribesPayload Ts k) :
    DescribesPayloads Tss hs := by
  induction Tss generalizing hs with
  | nil =>
    rw [List.length_nil, List.length_eq_zero_iff] at hl
    subst hl; exact .nil
  | cons T Tss ih =>
    cases hs with
    | nil => simp at hl
    | cons k hs =>
      exact .cons _ _ _ _ (h 0 T k rfl rfl) (ih (by simpa using hl) fun i Ts k hi hk =>
        h (i + 1) Ts k (by simpa using hi) (by simpa using hk))

theorem keptCount_append (xs ys : List RVariant) : keptCount (xs ++ ys) = keptCount xs + keptCount ys := by
  simp [keptCount]

theorem keptCount_le (xs : List RVariant) : keptCount xs ≤ xs.length := List.length_filter_le _ _

theorem keptCount_lt {xs : List RVariant} (h : ∃ v ∈ xs, Skipped (variantAttrs v)) :
    keptCount xs < xs.length := by
  obtain ⟨v, hv, hs⟩ := h
  obtain ⟨a, b, rfl⟩ := List.append_of_mem hv
  have h1 := keptCount_le a
  have h2 := keptCount_le b
  rw [keptCount_append, List.length_append, List.length_cons]
  have : keptCount (v :: b) = keptCount b := by
    rw [keptCount, List.filter_cons, if_neg (fun hc => (of_decide_eq_true hc : ¬ Skipped _) hs),
      keptCount]
  omega

theorem keptCount_zero {xs : List RVariant} (h : ∀ v ∈ xs, Skipped (variantAttrs v)) :
    keptCount xs = 0 := by
  rw [keptCount, List.length_eq_zero_iff, List.filter_eq_nil_iff]
  exact fun v hv hc => (of_decide_eq_true hc : ¬ Skipped _) (h v hv)

theorem kept_get (vs : List RVariant) (n : Nat) (v : RVariant) (hn : vs[n]? = some v)
    (hk : ¬ Skipped (variantAttrs v)) :
    (vs.filter fun v => ¬ Skipped (variantAttrs v))[keptCount (vs.take n)]? = some v := by
  induction vs generalizing n with
  | nil => simp at hn
  | cons w vs ih =>
    cases n with
    | zero =>
      simp at hn
      subst hn
      rw [List.filter_cons, if_pos (decide_eq_true hk)]
      rfl
    | succ n =>
      have := ih n (by simpa using hn)
      rw [List.take_succ_cons, keptCount, List.filter_cons, List.filter_cons]
      by_cases hw : Skipped (variantAttrs w)
      · rw [if_neg (fun hc => (of_decide_eq_true hc : ¬ Skipped _) hw),
          if_neg (fun hc => (of_decide_eq_true hc : ¬ Skipped _) hw)]
        exact this
      · rw [if_pos (decide_eq_true hw), if_pos (decide_eq_true hw), List.length_cons,
          List.getElem?_cons_succ]
        exact this

theorem position_lt : (vs : List RVariant) → (v : VariantsCarrier vs) →
    variantPosition vs v < vs.length
  | .mk _ _ _ :: _, .inl _ => by rw [variantPosition]; exact Nat.succ_pos _
  | .mk _ _ _ :: vs, .inr v => by
    rw [variantPosition, List.length_cons]
    exact Nat.succ_lt_succ (position_lt vs v)

theorem andThen_exec_ok {p q : WProg SerErr} {bs : List UInt8}
    (h : (p.andThen q).exec = (bs, .ok ())) {a : List UInt8} (hp : p.exec = (a, .ok ())) :
    ∃ b, bs = a ++ b ∧ q.exec = (b, .ok ()) := by
  rw [WProg.exec_andThen_ok hp] at h
  cases hq : q.exec with
  | mk b o =>
    rw [hq] at h
    simp only [Prod.mk.injEq] at h
    exact ⟨b, h.1.symm, by rw [h.2]⟩

/-- A variant that serializes is not skipped; its position comes first. -/
theorem exec_serVariant (mode : BuildMode) (name : String) : (vs : List RVariant) →
    (v : VariantsCarrier vs) → (i : Nat) → (bs : List UInt8) →
    i + variantPosition vs v < 2 ^ 32 → (serVariant mode name i vs v).exec = (bs, .ok ()) →
    (∃ w, vs[variantPosition vs v]? = some w ∧ ¬ Skipped (variantAttrs w)) ∧
    ∃ payload, bs = varint 32 (i + variantPosition vs v) ++ payload
  | .mk attrs vn fields :: vs, .inl v, i, bs, hi, hx => by
    rw [variantPosition, Nat.add_zero] at *
    have hs' : ¬ Skipped attrs := by
      intro hs
      cases fields <;> rw [serVariant, if_pos ((serdeSkips_iff attrs).mpr hs)] at hx <;>
        simp [WProg.exec] at hx
    refine ⟨⟨_, rfl, hs'⟩, ?_⟩
    have hu := Ser.exec_serU32 (UInt32.ofNat i)
    rw [UInt32.toNat_ofNat', Nat.mod_eq_of_lt hi] at hu
    have hsk : ¬ serdeSkips attrs = true := by rw [serdeSkips_iff]; exact hs'
    cases fields <;> rw [serVariant, if_neg hsk] at hx <;>
      (obtain ⟨b, hb, -⟩ := andThen_exec_ok hx hu; exact ⟨b, hb⟩)
  | .mk attrs vn fields :: vs, .inr v, i, bs, hi, hx => by
    rw [variantPosition] at *
    rw [serVariant] at hx
    have he : i + 1 + variantPosition vs v = i + (variantPosition vs v + 1) := by omega
    obtain ⟨⟨w, h1, h2⟩, payload, h3⟩ := exec_serVariant mode name vs v (i + 1) bs (by omega) hx
    refine ⟨⟨w, by simpa using h1, h2⟩, payload, ?_⟩
    rw [h3, he]

/-! ## Failing writers -/

theorem maps_put (bs : List UInt8) : WProg.Maps (fun e => e) (put bs) := ⟨fun _ => rfl, trivial⟩

mutual
theorem maps_header : (T : RTy) → (p : WProg IoErr) → serializeHeader T = .ok p →
    WProg.Maps (fun e => e) p
  | .unit, _, h => by rw [serializeHeader] at h; cases h; exact maps_put _
  | .option T, p, h => by
    rw [serializeHeader] at h
    obtain ⟨q, hq, hr⟩ := bind_ok h
    cases hr
    exact (maps_put _).andThen (maps_header T q hq)
  | .bool, _, h => by rw [serializeHeader] at h; cases h; exact maps_put _
  | .u8, _, h => by rw [serializeHeader] at h; cases h; exact maps_put _
  | .u16, _, h => by rw [serializeHeader] at h; cases h; exact maps_put _
  | .u32, _, h => by rw [serializeHeader] at h; cases h; exact maps_put _
  | .u64, _, h => by rw [serializeHeader] at h; cases h; exact maps_put _
  | .i8, _, h => by rw [serializeHeader] at h; cases h; exact maps_put _
  | .i16, _, h => by rw [serializeHeader] at h; cases h; exact maps_put _
  | .i32, _, h => by rw [serializeHeader] at h; cases h; exact maps_put _
  | .i64, _, h => by rw [serializeHeader] at h; cases h; exact maps_put _
  | .f32, _, h => by rw [serializeHeader] at h; cases h; exact maps_put _
  | .f64, _, h => by rw [serializeHeader] at h; cases h; exact maps_put _
  | .bigUint, _, h => by rw [serializeHeader] at h; cases h; exact maps_put _
  | .numBigUint, _, h => by rw [serializeHeader] at h; cases h; exact maps_put _
  | .bigInt, _, h => by rw [serializeHeader] at h; cases h; exact maps_put _
  | .numBigInt, _, h => by rw [serializeHeader] at h; cases h; exact maps_put _
  | .bigDecimal, _, h => by rw [serializeHeader] at h; cases h; exact maps_put _
  | .numBigDecimal, _, h => by rw [serializeHeader] at h; cases h; exact maps_put _
  | .str, _, h => by rw [serializeHeader] at h; cases h; exact maps_put _
  | .string, _, h => by rw [serializeHeader] at h; cases h; exact maps_put _
  | .bytes, _, h => by rw [serializeHeader] at h; cases h; exact maps_put _
  | .byteBuf, _, h => by rw [serializeHeader] at h; cases h; exact maps_put _
  | .vec T, p, h => by
    rw [serializeHeader] at h
    obtain ⟨q, hq, hr⟩ := bind_ok h
    cases hr
    exact (maps_put _).andThen (maps_header T q hq)
  | .date, _, h => by rw [serializeHeader] at h; cases h; exact maps_put _
  | .timeDate, _, h => by rw [serializeHeader] at h; cases h; exact maps_put _
  | .dateTime, _, h => by rw [serializeHeader] at h; cases h; exact maps_put _
  | .offsetDateTime, _, h => by rw [serializeHeader] at h; cases h; exact maps_put _
  | .btreeMap T, p, h => by
    rw [serializeHeader] at h
    obtain ⟨q, hq, hr⟩ := bind_ok h
    cases hr
    exact (maps_put _).andThen (maps_header T q hq)
  | .hashMap T, p, h => by
    rw [serializeHeader] at h
    obtain ⟨q, hq, hr⟩ := bind_ok h
    cases hr
    exact (maps_put _).andThen (maps_header T q hq)
  | .tuple Ts, p, h => by
    rw [serializeHeader] at h
    split at h
    · obtain ⟨q, hq, hr⟩ := bind_ok h
      cases hr
      exact (maps_put _).andThen ((maps_put _).andThen (maps_headers Ts q hq))
    · cases h
  | .struct name fields, p, h => by
    rw [serializeHeader] at h
    obtain ⟨⟨n, q⟩, hq, hr⟩ := bind_ok h
    cases hr
    refine (maps_put _).andThen ?_
    cases fields with
    | named fs => rw [structFields] at hq; exact maps_struct fs n q hq
    | unnamed fs => rw [structFields] at hq; exact maps_struct fs n q hq
    | unit => rw [structFields] at hq; cases hq; trivial
  | .enum name vs, p, h => by
    rw [serializeHeader] at h
    obtain ⟨⟨n, q⟩, hq, hr⟩ := bind_ok h
    cases hr
    exact (maps_put _).andThen (maps_variants vs n q hq)
  | .union _, p, h => by rw [serializeHeader] at h; cases h
  | .foreign, p, h => by rw [serializeHeader] at h; cases h
theorem maps_headers : (Ts : List RTy) → (p : WProg IoErr) → serializeHeaders Ts = .ok p →
    WProg.Maps (fun e => e) p
  | [], _, h => by rw [serializeHeaders] at h; cases h; trivial
  | T :: Ts, p, h => by
    rw [serializeHeaders] at h
    obtain ⟨q, hq, hr⟩ := bind_ok h
    obtain ⟨r, hr', hs⟩ := bind_ok hr
    cases hs
    exact (maps_header T q hq).andThen (maps_headers Ts r hr')
theorem maps_struct : (fs : List RField) → (n : Nat) → (p : WProg IoErr) →
    structTypes fs = .ok (n, p) → WProg.Maps (fun e => e) p
  | [], _, _, h => by rw [structTypes] at h; cases h; trivial
  | .mk attrs name T :: fs, n, p, h => by
    rw [structTypes] at h
    split at h
    · cases h
    · split at h
      · exact maps_struct fs n p h
      · obtain ⟨q, hq, hr⟩ := bind_ok h
        obtain ⟨⟨m, r⟩, hr', hs⟩ := bind_ok hr
        cases hs
        exact (maps_header T q hq).andThen (maps_struct fs m r hr')
theorem maps_variants : (vs : List RVariant) → (n : Nat) → (p : WProg IoErr) →
    enumVariants vs = .ok (n, p) → WProg.Maps (fun e => e) p
  | [], _, _, h => by rw [enumVariants] at h; cases h; trivial
  | .mk attrs name fields :: vs, n, p, h => by
    rw [enumVariants] at h
    split at h
    · cases h
    · split at h
      · exact maps_variants vs n p h
      · obtain ⟨q, hq, hr⟩ := bind_ok h
        obtain ⟨⟨m, r⟩, hr', hs⟩ := bind_ok hr
        cases hs
        refine WProg.Maps.andThen ?_ (maps_variants vs m r hr')
        cases fields with
        | named fs => rw [variantFields] at hq; exact maps_payload fs q hq
        | unnamed fs => rw [variantFields] at hq; exact maps_payload fs q hq
        | unit => rw [variantFields] at hq; cases hq; exact (maps_put _).andThen (maps_put _)
theorem maps_payload : (fs : List RField) → (p : WProg IoErr) → variantTypes fs = .ok p →
    WProg.Maps (fun e => e) p
  | [], _, h => by rw [variantTypes] at h; cases h; exact (maps_put _).andThen (maps_put _)
  | [.mk _ _ T], p, h => by
    rw [variantTypes] at h
    obtain ⟨q, hq, hr⟩ := bind_ok h
    cases hr
    rw [fieldTypes] at hq
    obtain ⟨r, hr, hs⟩ := bind_ok hq
    rw [fieldTypes] at hs
    cases hs
    exact (maps_put _).andThen ((maps_header T r hr).andThen trivial)
  | f :: g :: fs, p, h => by
    rw [variantTypes] at h
    obtain ⟨q, hq, hr⟩ := bind_ok h
    cases hr
    exact (maps_put _).andThen (maps_fields (f :: g :: fs) q hq)
theorem maps_fields : (fs : List RField) → (p : WProg IoErr) → fieldTypes fs = .ok p →
    WProg.Maps (fun e => e) p
  | [], _, h => by rw [fieldTypes] at h; cases h; trivial
  | .mk _ _ T :: fs, p, h => by
    rw [fieldTypes] at h
    obtain ⟨q, hq, hr⟩ := bind_ok h
    obtain ⟨r, hr', hs⟩ := bind_ok hr
    cases hs
    exact (maps_header T q hq).andThen (maps_fields fs r hr')
end

end Dlhn.Derive
