import Verif.Proof.NoText
import Verif.Spec.NoTextAll
/-! # Decoders that read no text, on targets of every pointer width -/
namespace Dlhn

open Spec hiding variantFields

theorem Prog.Strict.recognised {α : Type} {t : Target} {p : Prog DeErr α}
    (hp : Prog.Strict De.orRead p) {bs rest : List UInt8} {v : α}
    (h : Prog.run t p bs = .ok (v, rest)) : ∃ used, bs = used ++ rest ∧ Recognised t p used v := by
  obtain ⟨used, hb, hu, -⟩ := Prog.exec_split t .eof hp h
  exact ⟨used, hb, Prog.recognised hp.tame (hu .eof [0]) (by simp)⟩

namespace De

theorem strict_on {t : Target} {ty : Ty} (ht : t.ptr = .w64 ∨ NoText ty) :
    Prog.Strict orRead (de t ty) :=
  ht.elim (strict_de · ty) (strict_noText t ty)

theorem strict_ofExcept {α : Type} : (r : Except DeErr α) → Prog.Strict orRead (ofExcept r)
  | .ok _ => trivial
  | .error _ => trivial

mutual
theorem strict_impl (t : Target) : {α : Type} → (i : Impl α) →
    NoTextImpl i → Prog.Strict orRead (i.run t)
  | _, .ok a, _ => by rw [Impl.run]; exact trivial
  | _, .error e, _ => by rw [Impl.run]; exact trivial
  | _, .andThen p k, h => by
    rw [Impl.run]
    exact Prog.Strict.bind (strict_impl t p h.1) fun b =>
      strict_impl t (k b) (h.2 b)
  | _, .humanReadable k, h => by
    rw [Impl.run]; exact strict_impl t (k false) h
  | _, .any, h => by rw [Impl.run]; trivial
  | _, .str, h => by rw [Impl.run]; trivial
  | _, .bytes, h => by rw [Impl.run]; trivial
  | _, .ignoredAny, h => by rw [Impl.run]; trivial
  | _, .bool, _ => by rw [Impl.run]; exact strict_bool
  | _, .i8, _ => by rw [Impl.run]; exact strict_wrap (strict_readBytes 1) _
  | _, .i16, _ => by rw [Impl.run]; exact strict_wrap (strict_u16.mapErr orRead) _
  | _, .i32, _ => by rw [Impl.run]; exact strict_wrap (strict_u32.mapErr orRead) _
  | _, .i64, _ => by rw [Impl.run]; exact strict_wrap (strict_u64.mapErr orRead) _
  | _, .i128, _ => by rw [Impl.run]; exact trivial
  | _, .u8, _ => by rw [Impl.run]; exact strict_wrap (strict_readBytes 1) _
  | _, .u16, _ => by rw [Impl.run]; exact (strict_u16.mapErr orRead)
  | _, .u32, _ => by rw [Impl.run]; exact (strict_u32.mapErr orRead)
  | _, .u64, _ => by rw [Impl.run]; exact (strict_u64.mapErr orRead)
  | _, .u128, _ => by rw [Impl.run]; exact trivial
  | _, .f32, _ => by rw [Impl.run]; exact strict_wrap (strict_readBytes 4) _
  | _, .f64, _ => by rw [Impl.run]; exact strict_wrap (strict_readBytes 8) _
  | _, .char, h => h.elim
  | _, .string, h => h.elim
  | _, .byteBuf, _ => by rw [Impl.run]; exact (strict_byteBuf t)
  | _, .identifier, _ => by rw [Impl.run]; exact (strict_u16.mapErr orRead)
  | _, .unit, _ => by rw [Impl.run]; exact trivial
  | _, .unitStruct _, _ => by rw [Impl.run]; exact trivial
  | _, .option onNone onSome, h => by
    rw [Impl.run]
    refine Prog.Strict.bind strict_bool fun b => ?_
    split
    · exact strict_impl t onSome h.2
    · exact strict_impl t onNone h.1
  | _, .newtypeStruct _ visit, h => by rw [Impl.run]; exact strict_impl t visit h
  | _, .seq visit, h => by
    rw [Impl.run]
    exact Prog.Strict.bind (strict_u64.mapErr orRead) fun c => strict_seqImpl t (visit _) _ (h _)
  | _, .tuple len visit, h => by
    rw [Impl.run]; exact strict_seqImpl t (visit len) _ h
  | _, .tupleStruct _ len visit, h => by
    rw [Impl.run]; exact strict_seqImpl t (visit len) _ h
  | _, .map visit, h => by
    rw [Impl.run]
    exact Prog.Strict.bind (strict_u64.mapErr orRead) fun c => strict_mapImpl t (visit _) _ (h _)
  | _, .struct _ fields visit, h => by
    rw [Impl.run]; exact strict_fieldsImpl t visit fields h
  | _, .enum _ _ seed visit, h => by
    rw [Impl.run]
    exact Prog.Strict.bind (strict_impl t seed h.1) fun b =>
      strict_variantImpl t (visit b) (h.2 b)
theorem strict_seqImpl (t : Target) : {α : Type} → (i : SeqImpl α) → (count : Nat) →
    SeqNoText i → Prog.Strict orRead (i.run t count)
  | _, .ok a, _, _ => by rw [SeqImpl.run]; exact trivial
  | _, .error e, _, _ => by rw [SeqImpl.run]; exact trivial
  | _, .next seed k, count, h => by
    rw [SeqImpl.run]
    split
    · exact Prog.Strict.bind (strict_impl t seed h.1) fun b =>
        strict_seqImpl t (k (some b)) _ (h.2 _)
    · exact strict_seqImpl t (k none) _ (h.2 _)
theorem strict_mapImpl (t : Target) : {α : Type} → (i : MapImpl α) → (count : Nat) →
    MapNoText i → Prog.Strict orRead (i.run t count)
  | _, .ok a, _, _ => by rw [MapImpl.run]; exact trivial
  | _, .error e, _, _ => by rw [MapImpl.run]; exact trivial
  | _, .key seed k, count, h => by
    rw [MapImpl.run]
    split
    · exact Prog.Strict.bind (strict_impl t seed h.1) fun b =>
        strict_mapImpl t (k (some b)) _ (h.2 _)
    · exact strict_mapImpl t (k none) _ (h.2 _)
  | _, .value seed k, count, h => by
    rw [MapImpl.run]
    exact Prog.Strict.bind (strict_impl t seed h.1) fun b =>
      strict_mapImpl t (k b) _ (h.2 _)
theorem strict_fieldsImpl (t : Target) : {α : Type} → (i : FieldsImpl α) →
    (keys : List String) →
    KeysNoText i keys → Prog.Strict orRead (i.run t keys)
  | _, .ok a, _, _ => by rw [FieldsImpl.run]; exact trivial
  | _, .error e, _, _ => by rw [FieldsImpl.run]; exact trivial
  | _, .key k, [], h => by
    rw [FieldsImpl.run]; exact strict_fieldsImpl t (k none) [] h
  | _, .key k, name :: keys, h => by
    rw [FieldsImpl.run]; exact strict_fieldsImpl t (k (some name)) keys h
  | _, .value seed k, keys, h => by
    rw [FieldsImpl.run]
    exact Prog.Strict.bind (strict_impl t seed (by rw [KeysNoText] at h; exact h.1))
      fun b => strict_fieldsImpl t (k b) _ (by rw [KeysNoText] at h; exact h.2 b)
theorem strict_variantImpl (t : Target) : {α : Type} → (i : VariantImpl α) →
    VariantNoText i → Prog.Strict orRead (i.run t)
  | _, .ok a, _ => by rw [VariantImpl.run]; exact trivial
  | _, .error e, _ => by rw [VariantImpl.run]; exact trivial
  | _, .unit r, _ => by rw [VariantImpl.run]; exact strict_ofExcept r
  | _, .newtype seed k, h => by
    rw [VariantImpl.run]
    exact Prog.Strict.bind (strict_impl t seed h) fun b => strict_ofExcept _
  | _, .tuple len visit k, h => by
    rw [VariantImpl.run]
    exact Prog.Strict.bind (strict_seqImpl t (visit len) _ h) fun b => strict_ofExcept _
  | _, .struct fields visit k, h => by
    rw [VariantImpl.run]
    exact Prog.Strict.bind (strict_fieldsImpl t visit _ h) fun b => strict_ofExcept _
end

theorem strict_on_impl {t : Target} {α : Type} {i : Impl α} (ht : t.ptr = .w64 ∨ NoTextImpl i) :
    Prog.Strict orRead (i.run t) :=
  ht.elim (fun h => closed_impl (closed_strict h) i (.inr fun _ => trivial)) (strict_impl t i)

end De

namespace Body

open De

theorem strict_vecU8 (t : Target) : Prog.Strict orRead (De.deVecU8 t) :=
  Prog.Strict.bind (strict_u64.mapErr orRead) fun _ =>
    strict_times (strict_wrap (strict_readBytes 1) _) _

theorem strict_bigUint (t : Target) : Prog.Strict orRead (BigUint.de t) :=
  strict_wrap (strict_vecU8 t) _

theorem strict_bigInt (t : Target) : Prog.Strict orRead (BigInt.de t) :=
  strict_wrap (strict_vecU8 t) _

theorem strict_bigDecimal (t : Target) : Prog.Strict orRead (BigDecimal.de t) := by
  refine Prog.Strict.bind (strict_vecU8 t) fun bs => ?_
  split
  · trivial
  · exact strict_wrap (strict_wrap (strict_u64.mapErr orRead) _) _

theorem strict_date (mode : BuildMode) : Prog.Strict orRead (Date.de mode) := by
  refine Prog.Strict.bind (strict_wrap (strict_u32.mapErr orRead) _) fun y => ?_
  split
  · trivial
  · refine Prog.Strict.bind (strict_u16.mapErr orRead) fun o => ?_
    split <;> trivial

theorem strict_dateTime : Prog.Strict orRead DateTime.de :=
  Prog.Strict.bind (strict_wrap (strict_u64.mapErr orRead) _) fun _ =>
    strict_wrap (strict_u32.mapErr orRead) _

/-- No part of a header, or of headers, is text. -/
def NoTextIn (l : List Header) : Prop := .string ∉ l ∧ ∀ h', .map h' ∉ l

theorem NoTextIn.sub {l m : List Header} (h : NoTextIn l) (hs : ∀ x ∈ m, x ∈ l) : NoTextIn m :=
  ⟨fun hm => h.1 (hs _ hm), fun h' hm => h.2 h' (hs _ hm)⟩

mutual
theorem strict_noText_body (t : Target) (mode : BuildMode) (size : Nat) : (h : Header) →
    NoTextIn (headerParts h) → Prog.Strict orRead (de t mode size h)
  | .unit, _ => by rw [de]; trivial
  | .optional h, hn => by
    rw [de]
    refine Prog.Strict.bind strict_bool fun b => ?_
    split
    · exact strict_wrap (strict_noText_body t mode size h
        (hn.sub fun x hx => by simp [headerParts, hx])) _
    · trivial
  | .boolean, _ => by rw [de]; exact strict_wrap strict_bool _
  | .uint8, _ => by rw [de]; exact strict_wrap (strict_wrap (strict_readBytes 1) _) _
  | .uint16, _ => by rw [de]; exact strict_wrap (strict_u16.mapErr orRead) _
  | .uint32, _ => by rw [de]; exact strict_wrap (strict_u32.mapErr orRead) _
  | .uint64, _ => by rw [de]; exact strict_wrap (strict_u64.mapErr orRead) _
  | .int8, _ => by rw [de]; exact strict_wrap (strict_wrap (strict_readBytes 1) _) _
  | .int16, _ => by rw [de]; exact strict_wrap (strict_wrap (strict_u16.mapErr orRead) _) _
  | .int32, _ => by rw [de]; exact strict_wrap (strict_wrap (strict_u32.mapErr orRead) _) _
  | .int64, _ => by rw [de]; exact strict_wrap (strict_wrap (strict_u64.mapErr orRead) _) _
  | .float32, _ => by rw [de]; exact strict_wrap (strict_wrap (strict_readBytes 4) _) _
  | .float64, _ => by rw [de]; exact strict_wrap (strict_wrap (strict_readBytes 8) _) _
  | .bigUInt, _ => by rw [de]; exact strict_wrap (strict_bigUint t) _
  | .bigInt, _ => by rw [de]; exact strict_wrap (strict_bigInt t) _
  | .bigDecimal, _ => by rw [de]; exact strict_wrap (strict_bigDecimal t) _
  | .string, hn => absurd (by simp [headerParts]) hn.1
  | .binary, _ => by rw [de]; exact strict_wrap (strict_byteBuf t) _
  | .array h, hn => by
    rw [de]
    refine Prog.Strict.bind (strict_u64.mapErr orRead) fun len => ?_
    exact strict_wrap (strict_times (strict_noText_body t mode size h
      (hn.sub fun x hx => by simp [headerParts, hx])) _) _
  | .tuple hs, hn => by
    rw [de]
    exact strict_wrap (strict_noText_bodies t mode size hs
      (hn.sub fun x hx => by simp [headerParts, hx])) _
  | .map h, hn => absurd (by simp [headerParts]) (hn.2 h)
  | .enum hs, hn => by
    rw [de]
    exact Prog.Strict.bind (strict_u32.mapErr orRead) fun i => strict_wrap
      (strict_noText_nth t mode size hs (hn.sub fun x hx => by simp [headerParts, hx]) _) _
  | .date, _ => by rw [de]; exact strict_wrap (strict_date mode) _
  | .dateTime, _ => by rw [de]; exact strict_wrap strict_dateTime _
theorem strict_noText_bodies (t : Target) (mode : BuildMode) (size : Nat) : (hs : List Header) →
    NoTextIn (headersParts hs) → Prog.Strict orRead (deAll t mode size hs)
  | [], _ => by rw [deAll]; trivial
  | h :: hs, hn => by
    rw [deAll]
    refine Prog.Strict.bind (strict_noText_body t mode size h
      (hn.sub fun x hx => by simp [headersParts, hx])) fun b => ?_
    exact strict_wrap (strict_noText_bodies t mode size hs
      (hn.sub fun x hx => by simp [headersParts, hx])) _
theorem strict_noText_nth (t : Target) (mode : BuildMode) (size : Nat) : (hs : List Header) →
    NoTextIn (headersParts hs) → (n : Nat) → Prog.Strict orRead (deNth t mode size n hs)
  | [], _, n => by rw [deNth]; trivial
  | h :: hs, hn, 0 => by
    rw [deNth]
    exact strict_noText_body t mode size h (hn.sub fun x hx => by simp [headersParts, hx])
  | h :: hs, hn, n + 1 => by
    rw [deNth]
    exact strict_noText_nth t mode size hs (hn.sub fun x hx => by simp [headersParts, hx]) n
end

theorem strict_on {t : Target} (mode : BuildMode) (size : Nat) {h : Header}
    (ht : t.ptr = .w64 ∨ NoTextHeader h) : Prog.Strict orRead (de t mode size h) :=
  ht.elim (strict_body · mode size h) (strict_noText_body t mode size h)

end Body

namespace Derive

open De
open Body (strict_vecU8 strict_bigUint strict_bigInt strict_bigDecimal strict_date strict_dateTime)

theorem strict_numDecimal (t : Target) : Prog.Strict orRead (Format.deBigDecimal t) := by
  refine Prog.Strict.bind (strict_vecU8 t) fun bs => ?_
  show Prog.Strict orRead (if _ then _ else _)
  split
  · trivial
  · exact strict_wrap (strict_wrap (strict_u64.mapErr orRead) _) _

theorem strict_timeDate (mode : BuildMode) : Prog.Strict orRead (Format.deDate mode) := by
  refine Prog.Strict.bind (strict_wrap (strict_u32.mapErr orRead) _) fun y => ?_
  split
  · trivial
  · refine Prog.Strict.bind (strict_u16.mapErr orRead) fun o => ?_
    split
    · trivial
    · split <;> trivial

theorem strict_offsetDateTime : Prog.Strict orRead Format.deDateTime := by
  refine Prog.Strict.bind (strict_wrap (strict_u64.mapErr orRead) _) fun s =>
    Prog.Strict.bind (strict_u32.mapErr orRead) fun n => ?_
  split
  · trivial
  · split <;> trivial

/-- No part of a type, or of types, is text. -/
def NoTextParts (l : List RTy) : Prop :=
  .string ∉ l ∧ ∀ U, .btreeMap U ∉ l ∧ .hashMap U ∉ l

theorem NoTextParts.sub {l m : List RTy} (h : NoTextParts l) (hs : ∀ x ∈ m, x ∈ l) :
    NoTextParts m :=
  ⟨fun hm => h.1 (hs _ hm), fun U => ⟨fun hm => (h.2 U).1 (hs _ hm), fun hm => (h.2 U).2 (hs _ hm)⟩⟩

mutual
theorem strict_deTy_noText (t : Target) (mode : BuildMode) (env : Env) : (T : RTy) → NoTextParts (readParts T) →
    Prog.Strict orRead (deTy t mode env T)
  | .unit, _ => by rw [deTy]; exact trivial
  | .bool, _ => by rw [deTy]; exact strict_bool
  | .u8, _ => by rw [deTy]; exact strict_wrap (strict_readBytes 1) _
  | .u16, _ => by rw [deTy]; exact (strict_u16.mapErr orRead)
  | .u32, _ => by rw [deTy]; exact (strict_u32.mapErr orRead)
  | .u64, _ => by rw [deTy]; exact (strict_u64.mapErr orRead)
  | .i8, _ => by rw [deTy]; exact strict_wrap (strict_readBytes 1) _
  | .i16, _ => by rw [deTy]; exact strict_wrap (strict_u16.mapErr orRead) _
  | .i32, _ => by rw [deTy]; exact strict_wrap (strict_u32.mapErr orRead) _
  | .i64, _ => by rw [deTy]; exact strict_wrap (strict_u64.mapErr orRead) _
  | .f32, _ => by rw [deTy]; exact strict_wrap (strict_readBytes 4) _
  | .f64, _ => by rw [deTy]; exact strict_wrap (strict_readBytes 8) _
  | .bigUint, _ => by rw [deTy]; exact strict_bigUint t
  | .numBigUint, _ => by rw [deTy]; exact strict_wrap (strict_vecU8 t) _
  | .bigInt, _ => by rw [deTy]; exact strict_bigInt t
  | .numBigInt, _ => by rw [deTy]; exact strict_wrap (strict_vecU8 t) _
  | .bigDecimal, _ => by rw [deTy]; exact strict_bigDecimal t
  | .numBigDecimal, _ => by rw [deTy]; exact strict_numDecimal t
  | .string, h => absurd (by simp [readParts]) h.1
  | .byteBuf, _ => by rw [deTy]; exact (strict_byteBuf t)
  | .dateTime, _ => by rw [deTy]; exact strict_dateTime
  | .str, h => by rw [deTy]; trivial
  | .bytes, h => by rw [deTy]; trivial
  | .date, h => by rw [deTy]; exact strict_date mode
  | .timeDate, h => by rw [deTy]; exact strict_timeDate mode
  | .offsetDateTime, h => by
    rw [deTy]; exact strict_offsetDateTime
  | .union _, _ => by rw [deTy]; exact trivial
  | .foreign, _ => by rw [deTy]; exact trivial
  | .option T, h => by
    rw [deTy]
    have ih := strict_deTy_noText t mode env T (h.sub fun U hU => by simp [readParts, hU])
    refine Prog.Strict.bind strict_bool fun b => ?_
    cases b
    · exact trivial
    · exact strict_wrap ih _
  | .vec T, h => by
    rw [deTy]
    have ih := strict_deTy_noText t mode env T (h.sub fun U hU => by simp [readParts, hU])
    exact Prog.Strict.bind (strict_u64.mapErr orRead) fun _ => strict_times ih _
  | .btreeMap T, h => absurd (by simp [readParts]) (h.2 T).1
  | .hashMap T, h => absurd (by simp [readParts]) (h.2 T).2
  | .tuple Ts, h => by
    rw [deTy]
    exact strict_deTuple_noText t mode env Ts (h.sub fun U hU => by simp [readParts, hU])
  | .struct name (.named fs), h => by
    rw [deTy]
    exact strict_deFields_noText t mode env fs (h.sub fun U hU => by simp [readParts, hU])
  | .struct name (.unnamed []), _ => by rw [deTy]; exact trivial
  | .struct name (.unnamed [.mk attrs fname T]), h => by
    rw [deTy]
    exact strict_wrap (strict_deTy_noText t mode env T (h.sub fun U hU => by simp [readParts, hU])) _
  | .struct name (.unnamed (f :: g :: fs)), h => by
    rw [deTy]
    exact strict_deFields_noText t mode env (f :: g :: fs) (h.sub fun U hU => by simp [readParts, hU])
  | .struct name .unit, _ => by rw [deTy]; exact trivial
  | .enum name vs, h => by
    rw [deTy]
    exact Prog.Strict.bind (strict_u16.mapErr orRead) fun i =>
      strict_deVariant_noText t mode env vs (h.sub fun U hU => by simp [readParts, hU]) _
theorem strict_deTuple_noText (t : Target) (mode : BuildMode) (env : Env) : (Ts : List RTy) → NoTextParts (readPartsAll Ts) →
    Prog.Strict orRead (deTuple t mode env Ts)
  | [], _ => by rw [deTuple]; exact trivial
  | T :: Ts, h => by
    rw [deTuple]
    exact Prog.Strict.bind (strict_deTy_noText t mode env T (h.sub fun U hU => by simp [readPartsAll, hU])) fun _ =>
      strict_wrap (strict_deTuple_noText t mode env Ts (h.sub fun U hU => by simp [readPartsAll, hU])) _
theorem strict_deFields_noText (t : Target) (mode : BuildMode) (env : Env) : (fs : List RField) → NoTextParts (readPartsFields fs) →
    Prog.Strict orRead (deFields t mode env fs)
  | [], _ => by rw [deFields]; exact trivial
  | .mk attrs _ T :: fs, h => by
    rw [deFields]
    have ih := strict_deFields_noText t mode env fs (h.sub fun U hU => by simp [readPartsFields, hU])
    by_cases hs : SkippedDe attrs
    · rw [if_pos ((deSkips_iff attrs).mpr hs)]
      split
      · exact strict_wrap ih _
      · exact trivial
    · rw [if_neg (fun h' => hs ((deSkips_iff attrs).mp h'))]
      exact Prog.Strict.bind (strict_deTy_noText t mode env T
        (h.sub fun U hU => by simp [readPartsFields, hs, hU])) fun _ => strict_wrap ih _
theorem strict_deVariant_noText (t : Target) (mode : BuildMode) (env : Env) {idx : Nat} : (vs : List RVariant) → NoTextParts (readPartsVariants vs) →
    (n : Nat) →
    Prog.Strict orRead (deVariant t mode env idx n vs)
  | [], _, _ => by rw [deVariant]; exact trivial
  | .mk attrs vn fields :: vs, h, n => by
    have ih := strict_deVariant_noText (idx := idx) t mode env vs (h.sub fun U hU => by simp [readPartsVariants, hU])
    by_cases hs : SkippedDe attrs
    · rw [deVariant_skip _ _ _ _ hs]
      exact strict_wrap (ih n) _
    · cases n with
      | zero =>
        rw [deVariant_zero _ _ _ hs]
        exact strict_wrap (strict_dePayload_noText t mode env fields
          (h.sub fun U hU => by simp [readPartsVariants, hs, hU])) _
      | succ n =>
        rw [deVariant_succ _ _ _ _ hs]
        exact strict_wrap (ih n) _
theorem strict_dePayload_noText (t : Target) (mode : BuildMode) (env : Env) : (fields : RFields) → NoTextParts (readPartsPayload fields) →
    Prog.Strict orRead (dePayload t mode env fields)
  | .named fs, h => by
    rw [dePayload]
    exact strict_deFields_noText t mode env fs (h.sub fun U hU => by simp [readPartsPayload, hU])
  | .unnamed fs, h => by
    rw [dePayload]
    exact strict_deFields_noText t mode env fs (h.sub fun U hU => by simp [readPartsPayload, hU])
  | .unit, _ => by rw [dePayload]; exact trivial
end

theorem strict_on {t : Target} (mode : BuildMode) (env : Env) {T : RTy}
    (ht : t.ptr = .w64 ∨ NoTextDerived T) : Prog.Strict orRead (deTy t mode env T) :=
  ht.elim (strict_deTy · mode env T) (strict_deTy_noText t mode env T)

end Derive

namespace Rec

open De hiding deAll deFields deVariant dePayload

mutual
theorem strict_body_noText (t : Target) {call : String → Prog DeErr Val}
    (hc : ∀ n, Prog.Strict orRead (call n)) : (T : RecTy) → NoTextRec T → Prog.Strict orRead (deBody t call T)
  | .leaf ty, h => by rw [deBody]; exact strict_noText t ty h
  | .named n, h => by rw [deBody]; exact hc n
  | .option T, h => by
    rw [deBody]
    refine Prog.Strict.bind strict_bool fun b => ?_
    split
    · exact strict_wrap (strict_body_noText t hc T h) _
    · exact trivial
  | .newtypeStruct _ T, h => by rw [deBody]; exact strict_wrap (strict_body_noText t hc T h) _
  | .seq T, h => by
    rw [deBody]
    exact Prog.Strict.bind (strict_u64.mapErr orRead) fun _ => strict_wrap (strict_times (strict_body_noText t hc T h) _) _
  | .tuple Ts, h => by rw [deBody]; exact strict_wrap (strict_all_noText t hc Ts h) _
  | .tupleStruct _ Ts, h => by rw [deBody]; exact strict_wrap (strict_all_noText t hc Ts h) _
  | .map kt T, h => by
    rw [deBody]
    exact Prog.Strict.bind (strict_u64.mapErr orRead) fun _ => strict_wrap (strict_times (Prog.Strict.bind (strict_noText t kt h.1)
      fun _ => strict_wrap (strict_body_noText t hc T h.2) _) _) _
  | .struct _ fs, h => by rw [deBody]; exact strict_wrap (strict_fields_noText t hc fs h) _
  | .enum name vs, h => by
    rw [deBody]
    exact Prog.Strict.bind (strict_u16.mapErr orRead) fun i => strict_variant_noText t hc name i _ vs h
theorem strict_all_noText (t : Target) {call : String → Prog DeErr Val}
    (hc : ∀ n, Prog.Strict orRead (call n)) : (Ts : List RecTy) →
    AllNoTextRec Ts → Prog.Strict orRead (deAll t call Ts)
  | [], h => by rw [deAll]; exact trivial
  | T :: Ts, h => by
    rw [deAll]
    exact Prog.Strict.bind (strict_body_noText t hc T h.1) fun _ =>
      strict_wrap (strict_all_noText t hc Ts h.2) _
theorem strict_fields_noText (t : Target) {call : String → Prog DeErr Val}
    (hc : ∀ n, Prog.Strict orRead (call n)) : (fs : List (String × RecTy)) →
    FieldsNoTextRec fs → Prog.Strict orRead (deFields t call fs)
  | [], h => by rw [deFields]; exact trivial
  | (_, T) :: fs, h => by
    rw [deFields]
    exact Prog.Strict.bind (strict_body_noText t hc T h.1) fun _ =>
      strict_wrap (strict_fields_noText t hc fs h.2) _
theorem strict_variant_noText (t : Target) {call : String → Prog DeErr Val}
    (hc : ∀ n, Prog.Strict orRead (call n)) (name : String) (i : UInt16) : (j : Nat) →
    (vs : List (String × RecVTy)) → VariantsNoTextRec vs →
    Prog.Strict orRead (deVariant t call name i j vs)
  | _, [], h => by rw [deVariant]; exact trivial
  | j + 1, _ :: vs, h => by rw [deVariant]; exact strict_variant_noText t hc name i j vs h.2
  | 0, (vn, vt) :: _, h => by rw [deVariant]; exact strict_payload_noText t hc name _ vn vt h.1
theorem strict_payload_noText (t : Target) {call : String → Prog DeErr Val}
    (hc : ∀ n, Prog.Strict orRead (call n)) (name : String) (i : UInt32) (vn : String) : (vt : RecVTy) →
    PayloadNoTextRec vt → Prog.Strict orRead (dePayload t call name i vn vt)
  | .unit, h => by rw [dePayload]; exact trivial
  | .newtype T, h => by rw [dePayload]; exact strict_wrap (strict_body_noText t hc T h) _
  | .tuple Ts, h => by rw [dePayload]; exact strict_wrap (strict_all_noText t hc Ts h) _
  | .struct fs, h => by rw [dePayload]; exact strict_wrap (strict_fields_noText t hc fs h) _
end

theorem strict_named_noText (t : Target) (defs : Defs) (h : ∀ n, NoTextRec (defs n)) : (d : Nat) →
    (n : String) → Prog.Strict orRead (deNamed t defs d n)
  | 0, _ => by rw [deNamed]; trivial
  | d + 1, n => by
    rw [deNamed]
    exact strict_body_noText t (strict_named_noText t defs h d) (defs n) (h n)

theorem strict_on {t : Target} {defs : Defs} (ht : t.ptr = .w64 ∨ ∀ n, NoTextRec (defs n)) (d : Nat)
    (n : String) : Prog.Strict orRead (deNamed t defs d n) :=
  ht.elim (strict_named · defs d n) (strict_named_noText t defs · d n)

end Rec

end Dlhn
