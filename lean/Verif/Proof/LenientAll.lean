import Verif.Proof.Lenient
import Verif.Proof.NoTextAll
import Verif.Spec.LenientAll
/-! # Lemmas about headers and derived types that can notice bad data -/
namespace Dlhn.De
open Spec

/-- Some data are never read, whatever follows. -/
def Misses (t : Target) {α : Type} (p : Prog DeErr α) : Prop :=
  ∃ bs, ∀ more x, Prog.exec t .eof p (bs ++ more) ≠ .ok x

variable {t : Target} {α β : Type}

theorem Rejects.misses {p : Prog DeErr α} (h : Rejects t p) : Misses t p := by
  obtain ⟨bs, h⟩ := h
  refine ⟨bs, fun more x hx => ?_⟩
  obtain ⟨e, he⟩ := h more
  rw [he] at hx
  cases hx

theorem Misses.left {p : Prog DeErr α} (hp : Misses t p) (f : α → Prog DeErr β) :
    Misses t (p >>= f) := by
  obtain ⟨bs, h⟩ := hp
  refine ⟨bs, fun more x hx => ?_⟩
  rw [Prog.bind_eq, Prog.exec_bind] at hx
  cases hp : Prog.exec t .eof p (bs ++ more) with
  | ok y => exact h more y hp
  | err e => rw [hp] at hx; cases hx
  | panic k => rw [hp] at hx; cases hx

theorem Completable.some {p : Prog DeErr α} (hs : Prog.Strict orRead p) (hp : Completable t p) :
    ∃ bs a, Prog.exec t .eof p bs = .ok (a, []) := by
  rcases hp [] with ⟨a, r, h⟩ | ⟨-, more, a, h⟩
  · exact ⟨[], a, by rw [h, exec_nil_rest hs h]⟩
  · exact ⟨_, a, h⟩

theorem Misses.right {p : Prog DeErr α} (hs : Prog.Strict orRead p) (hp : Completable t p)
    {f : α → Prog DeErr β} (hf : ∀ a, Misses t (f a)) : Misses t (p >>= f) := by
  obtain ⟨bs, a, h⟩ := hp.some hs
  obtain ⟨bs', h'⟩ := hf a
  refine ⟨bs ++ bs', fun more x hx => h' more x ?_⟩
  rw [List.append_assoc, Prog.bind_eq, Prog.exec_bind, exec_more hs h, Prog.next_ok,
    List.nil_append] at hx
  exact hx

/-- What is not read after a beginning that is. -/
theorem Misses.after {p : Prog DeErr α} {f : α → Prog DeErr β} (a : α) (bs : List UInt8)
    (h : ∀ more, Prog.exec t .eof p (bs ++ more) = .ok (a, more)) (hf : Misses t (f a)) :
    Misses t (p >>= f) := by
  obtain ⟨bs', h'⟩ := hf
  refine ⟨bs ++ bs', fun more x hx => h' more x ?_⟩
  rw [List.append_assoc, Prog.bind_eq, Prog.exec_bind, h, Prog.next_ok] at hx
  exact hx

theorem misses_err (e : DeErr) : Misses t (.done (.err e) : Prog DeErr α) :=
  ⟨[], fun _ _ h => by cases h⟩

theorem misses_panic (k : PanicKind) : Misses t (.done (.panic k) : Prog DeErr α) :=
  ⟨[], fun _ _ h => by cases h⟩

theorem asUsize_one (t : Target) : t.asUsize (UInt64.ofNat 1) = 1 :=
  asUsize_ofNat (Nat.lt_of_lt_of_le (by decide) (bits_ge t))

/-- A count of one, then what the element does not read. -/
theorem Misses.counted {p : Prog DeErr α} (hp : Misses t p) :
    Misses t (io PrefixVarint.decodeU64 >>= fun count => times (t.asUsize count) p) := by
  refine .after (UInt64.ofNat 1) (varint 64 1)
    (fun more => exec_u64_varint t _ 1 (by decide) more) ?_
  rw [asUsize_one, times]
  exact hp.left _

/-! ## Numbers and dates -/

theorem completable_byte : Completable t deU8 :=
  .wrap (strict_readBytes 1) (completable_readBytes 1) _

theorem completable_i8 : Completable t deI8 :=
  .wrap (strict_readBytes 1) (completable_readBytes 1) _

theorem completable_i16 : Completable t deI16 := .wrap (strict_u16.mapErr orRead) completable_u16 _
theorem completable_i32 : Completable t deI32 := .wrap (strict_u32.mapErr orRead) completable_u32 _
theorem completable_i64 : Completable t deI64 := .wrap (strict_u64.mapErr orRead) completable_u64 _

theorem completable_f32 : Completable t deF32 :=
  .wrap (strict_readBytes 4) (completable_readBytes 4) _
theorem completable_f64 : Completable t deF64 :=
  .wrap (strict_readBytes 8) (completable_readBytes 8) _

theorem completable_vecU8 : Completable t (deVecU8 t) :=
  .bind (strict_u64.mapErr orRead) (fun _ => strict_times (strict_wrap (strict_readBytes 1) _) _)
    completable_u64 fun _ => .times (strict_wrap (strict_readBytes 1) _) completable_byte _

theorem completable_bigUint : Completable t (BigUint.de t) :=
  .wrap (Body.strict_vecU8 t) completable_vecU8 _

theorem completable_bigInt : Completable t (BigInt.de t) :=
  .wrap (Body.strict_vecU8 t) completable_vecU8 _

theorem strict_i64 : Prog.Strict orRead deI64 := strict_wrap (strict_u64.mapErr orRead) _

theorem completable_bigDecimal : Completable t (BigDecimal.de t) := by
  refine .bind (Body.strict_vecU8 t) (fun bs => ?_) completable_vecU8 fun bs => ?_
  · split
    · trivial
    · exact strict_wrap strict_i64 _
  · split
    · exact .pure _
    · exact .wrap strict_i64 completable_i64 _

theorem completable_numDecimal : Completable t (Format.deBigDecimal t) := by
  refine .bind (Body.strict_vecU8 t) (fun bs => ?_) completable_vecU8 fun bs => ?_
  · show Prog.Strict orRead (if _ then _ else _)
    split
    · trivial
    · exact strict_wrap strict_i64 _
  · show Completable t (if _ then _ else _)
    split
    · exact .pure _
    · exact .wrap strict_i64 completable_i64 _

theorem completable_dateTime : Completable t DateTime.de :=
  .bind strict_i64 (fun _ => strict_wrap (strict_u32.mapErr orRead) _) completable_i64 fun _ =>
    .wrap (strict_u32.mapErr orRead) completable_u32 _

/-- Without overflow checks every date is read. -/
theorem completable_date : Completable t (Date.de .release) := by
  refine .bind (strict_wrap (strict_u32.mapErr orRead) _) (fun y => ?_) completable_i32 fun y => ?_
  · dsimp only [addI32, addU16]
    exact strict_wrap (strict_u16.mapErr orRead) _
  · dsimp only [addI32, addU16]
    exact .wrap (strict_u16.mapErr orRead) completable_u16 _

theorem exec_i32_raw (n : Nat) (h : n < 2 ^ 32) (more : List UInt8) :
    Prog.exec t .eof deI32 (varint 32 n ++ more) =
      .ok (ZigZag.decodeI32 (UInt32.ofNat n), more) := by
  rw [deI32, Prog.bind_eq, Prog.exec_bind, exec_u32_varint t _ n h, Prog.next_ok]
  rfl

theorem exec_i64_raw (n : Nat) (h : n < 2 ^ 64) (more : List UInt8) :
    Prog.exec t .eof deI64 (varint 64 n ++ more) =
      .ok (ZigZag.decodeI64 (UInt64.ofNat n), more) := by
  rw [deI64, Prog.bind_eq, Prog.exec_bind, exec_u64_varint t _ n h, Prog.next_ok]
  rfl

/-- With overflow checks the last year panics. -/
theorem misses_date : Misses t (Date.de .debug) := by
  refine .after _ (varint 32 4294967294) (exec_i32_raw 4294967294 (by decide)) ?_
  rw [show addI32 .debug (ZigZag.decodeI32 (UInt32.ofNat 4294967294)) DATE_YEAR_OFFSET = none by
    decide +kernel]
  exact misses_panic _

/-- The year 1002000 is refused. -/
theorem misses_timeDate (mode : BuildMode) : Misses t (Format.deDate mode) := by
  refine .after _ (varint 32 2000000) (exec_i32_raw 2000000 (by decide)) ?_
  rw [show addI32 mode (ZigZag.decodeI32 (UInt32.ofNat 2000000)) 2000 = some 1002000 by
    cases mode <;> decide +kernel]
  refine .after _ (varint 16 0) (exec_u16_varint t _ 0 (by decide)) ?_
  rw [show addU16 mode (UInt16.ofNat 0) 1 = some 1 by cases mode <;> decide +kernel]
  dsimp only
  rw [show Time.fromOrdinalDate 1002000 1 = none by decide +kernel]
  exact misses_err _

/-- The last second of an `i64` is refused. -/
theorem misses_offsetDateTime : Misses t Format.deDateTime := by
  refine .after _ (varint 64 18446744073709551614)
    (exec_i64_raw 18446744073709551614 (by decide)) ?_
  refine .after _ (varint 32 0) (exec_u32_varint t _ 0 (by decide)) ?_
  rw [show Time.fromUnixTimestamp (ZigZag.decodeI64 (UInt64.ofNat 18446744073709551614)) = none by
    decide +kernel]
  exact misses_err _

end Dlhn.De

namespace Dlhn.Body
open Spec De

variable {t : Target}

theorem completable_alloc {α : Type} {n : Nat} (h : t.allocate n = Option.none) {p : Prog DeErr α}
    (hp : Completable t p) : Completable t (.alloc n p) := by
  intro bs
  simp only [exec_alloc t .eof n h]
  exact hp bs

theorem misses_alloc {α : Type} (n : Nat) {p : Prog DeErr α} (hp : Misses t p) :
    Misses t (.alloc n p) := by
  obtain ⟨bs, hb⟩ := hp
  cases h : t.allocate n with
  | none => exact ⟨bs, fun more x hx => hb more x (by rwa [exec_alloc t .eof n h] at hx)⟩
  | some k =>
    refine ⟨[], fun more x hx => ?_⟩
    rw [Prog.exec, h] at hx
    cases hx

theorem allocate_none {n : Nat} (h1 : n ≤ t.isizeMax) (h2 : n ≤ t.memLimit) :
    t.allocate n = Option.none := by
  rw [Target.allocate, if_neg (by omega), if_neg (by omega)]

mutual
theorem noTextIn_lenient (mode : BuildMode) : (h : Header) → LenientHeader mode h →
    NoTextIn (headerParts h)
  | .unit, _ | .uint8, _ | .uint16, _ | .uint32, _ | .uint64, _ | .int8, _ | .int16, _ | .int32, _
  | .int64, _ | .float32, _ | .float64, _ | .bigUInt, _ | .bigInt, _ | .bigDecimal, _ | .binary, _
  | .dateTime, _ | .date, _ => by simp [NoTextIn, headerParts]
  | .tuple hs, h => by
    have ih := noTextIn_lenient_all mode hs h
    exact ⟨by simpa [headerParts] using ih.1, fun h' => by simpa [headerParts] using ih.2 h'⟩
  | .boolean, h | .string, h | .optional _, h | .array _, h | .map _, h | .enum _, h => False.elim h
theorem noTextIn_lenient_all (mode : BuildMode) : (hs : List Header) → AllLenientHeader mode hs →
    NoTextIn (headersParts hs)
  | [], _ => by simp [NoTextIn, headersParts]
  | h :: hs, hl => by
    have h1 := noTextIn_lenient mode h hl.1
    have h2 := noTextIn_lenient_all mode hs hl.2
    exact ⟨by simp [headersParts, h1.1, h2.1], fun h' => by simp [headersParts, h1.2 h', h2.2 h']⟩
end

theorem strict_lenientHeader (t : Target) {mode : BuildMode} (size : Nat) {h : Header}
    (hl : LenientHeader mode h) : Prog.Strict orRead (de t mode size h) :=
  strict_noText_body t mode size h (noTextIn_lenient mode h hl)

/-- Tuples of the headers fit into memory. -/
def TuplesIn (t : Target) (size : Nat) (l : List Header) : Prop :=
  ∀ hs, .tuple hs ∈ l → hs.length * size ≤ t.isizeMax ∧ hs.length * size ≤ t.memLimit

theorem TuplesIn.sub {size : Nat} {l m : List Header} (h : TuplesIn t size l)
    (hs : ∀ x ∈ m, x ∈ l) : TuplesIn t size m := fun ts ht => h ts (hs _ ht)

mutual
theorem completable_body (hm : 4096 ≤ t.memLimit) (mode : BuildMode) (size : Nat) : (h : Header) →
    LenientHeader mode h → TuplesIn t size (headerParts h) → Completable t (de t mode size h)
  | .unit, _, _ => by rw [de]; exact .pure _
  | .uint8, _, _ => by rw [de]; exact .wrap (strict_wrap (strict_readBytes 1) _) completable_byte _
  | .uint16, _, _ => by rw [de]; exact .wrap (strict_u16.mapErr orRead) completable_u16 _
  | .uint32, _, _ => by rw [de]; exact .wrap (strict_u32.mapErr orRead) completable_u32 _
  | .uint64, _, _ => by rw [de]; exact .wrap (strict_u64.mapErr orRead) completable_u64 _
  | .int8, _, _ => by rw [de]; exact .wrap (strict_wrap (strict_readBytes 1) _) completable_i8 _
  | .int16, _, _ => by
    rw [de]; exact .wrap (strict_wrap (strict_u16.mapErr orRead) _) completable_i16 _
  | .int32, _, _ => by
    rw [de]; exact .wrap (strict_wrap (strict_u32.mapErr orRead) _) completable_i32 _
  | .int64, _, _ => by rw [de]; exact .wrap strict_i64 completable_i64 _
  | .float32, _, _ => by
    rw [de]; exact .wrap (strict_wrap (strict_readBytes 4) _) completable_f32 _
  | .float64, _, _ => by
    rw [de]; exact .wrap (strict_wrap (strict_readBytes 8) _) completable_f64 _
  | .bigUInt, _, _ => by rw [de]; exact .wrap (strict_bigUint t) completable_bigUint _
  | .bigInt, _, _ => by rw [de]; exact .wrap (strict_bigInt t) completable_bigInt _
  | .bigDecimal, _, _ => by rw [de]; exact .wrap (strict_bigDecimal t) completable_bigDecimal _
  | .binary, _, _ => by rw [de]; exact .wrap (strict_byteBuf t) (completable_byteBuf hm) _
  | .date, h, _ => by cases h; rw [de]; exact .wrap (strict_date _) completable_date _
  | .dateTime, _, _ => by rw [de]; exact .wrap strict_dateTime completable_dateTime _
  | .tuple hs, h, ht => by
    rw [de]
    have h' := ht hs (by simp [headerParts])
    exact completable_alloc (allocate_none h'.1 h'.2) (.wrap
      (strict_noText_bodies t mode size hs (noTextIn_lenient_all mode hs h))
      (completable_bodies hm mode size hs h (ht.sub fun x hx => by simp [headerParts, hx])) _)
  | .boolean, h, _ | .string, h, _ | .optional _, h, _ | .array _, h, _ | .map _, h, _
  | .enum _, h, _ => False.elim h
theorem completable_bodies (hm : 4096 ≤ t.memLimit) (mode : BuildMode) (size : Nat) :
    (hs : List Header) → AllLenientHeader mode hs → TuplesIn t size (headersParts hs) →
    Completable t (deAll t mode size hs)
  | [], _, _ => by rw [deAll]; exact .pure _
  | h :: hs, hl, ht => by
    rw [deAll]
    have hst := strict_noText_bodies t mode size hs (noTextIn_lenient_all mode hs hl.2)
    exact .bind (strict_lenientHeader t size hl.1) (fun _ => strict_wrap hst _)
      (completable_body hm mode size h hl.1 (ht.sub fun x hx => by simp [headersParts, hx]))
      fun _ => .wrap hst (completable_bodies hm mode size hs hl.2
        (ht.sub fun x hx => by simp [headersParts, hx])) _
end

theorem deNth_past (t : Target) (mode : BuildMode) (size : Nat) (n : Nat) (hs : List Header)
    (h : hs.length ≤ n) : deNth t mode size n hs = .done (.err .read) := by
  induction hs generalizing n with
  | nil => rw [deNth]
  | cons x hs ih =>
    cases n with
    | zero => simp at h
    | succ n => rw [deNth]; exact ih n (by simpa using h)

theorem asUsize_max (t : Target) : t.isizeMax < t.asUsize (UInt64.ofNat 18446744073709551615) := by
  unfold Target.isizeMax Target.asUsize
  cases t.ptr <;> decide

/-- Enums of the headers have less than 2^32 variants. -/
def EnumsIn (l : List Header) : Prop := ∀ hs, .enum hs ∈ l → hs.length < 2 ^ 32

theorem EnumsIn.sub {l m : List Header} (h : EnumsIn l) (hs : ∀ x ∈ m, x ∈ l) : EnumsIn m :=
  fun ts ht => h ts (hs _ ht)

mutual
theorem misses_body (hm : 4096 ≤ t.memLimit) (mode : BuildMode) (size : Nat) (hz : 0 < size) :
    (h : Header) → ¬ LenientHeader mode h → EnumsIn (headerParts h) →
    TuplesIn t size (headerParts h) →
    Misses t (de t mode size h)
  | .unit, h, _, _ | .uint8, h, _, _ | .uint16, h, _, _ | .uint32, h, _, _ | .uint64, h, _, _ | .int8, h, _, _
  | .int16, h, _, _ | .int32, h, _, _ | .int64, h, _, _ | .float32, h, _, _ | .float64, h, _, _ | .bigUInt, h, _, _
  | .bigInt, h, _, _ | .bigDecimal, h, _, _ | .binary, h, _, _ | .dateTime, h, _, _ => absurd trivial h
  | .date, h, _, _ => by
    rw [de]
    cases mode with
    | debug => exact misses_date.left _
    | release => exact absurd rfl h
  | .boolean, _, _, _ => by rw [de]; exact rejects_bool.misses.left _
  | .string, _, _, _ => by rw [de]; exact rejects_string.misses.left _
  | .optional _, _, _, _ => by rw [de]; exact rejects_bool.misses.left _
  | .array h, _, _, _ => by
    rw [de]
    refine .after (UInt64.ofNat 18446744073709551615) (varint 64 18446744073709551615)
      (exec_u64_varint t _ 18446744073709551615 (by decide)) ⟨[], fun more x hx => ?_⟩
    have : t.isizeMax < t.asUsize (UInt64.ofNat 18446744073709551615) * size :=
      Nat.lt_of_lt_of_le (asUsize_max t) (Nat.le_mul_of_pos_right _ hz)
    rw [Prog.exec, Target.allocate, if_pos this] at hx
    cases hx
  | .map h, _, _, _ => by
    rw [de]
    refine .after (UInt64.ofNat 1) (varint 64 1) (exec_u64_varint t _ 1 (by decide)) ?_
    rw [show (UInt64.ofNat 1).toNat = 1 from rfl, insertLoop]
    exact (rejects_string.misses.left _).left _
  | .enum hs, _, he, _ => by
    rw [de]
    have hl := he hs (by simp [headerParts])
    refine .after (UInt32.ofNat 4294967295) (varint 32 4294967295)
      (exec_u32_varint t _ 4294967295 (by decide)) ?_
    rw [deNth_past t mode size _ hs (by
      rw [show (UInt32.ofNat 4294967295).toNat = 4294967295 from rfl]; omega)]
    exact misses_err _
  | .tuple hs, h, he, ht => by
    rw [de]
    exact misses_alloc _ ((misses_bodies hm mode size hz hs h
      (he.sub fun x hx => by simp [headerParts, hx])
      (ht.sub fun x hx => by simp [headerParts, hx])).left _)
theorem misses_bodies (hm : 4096 ≤ t.memLimit) (mode : BuildMode) (size : Nat) (hz : 0 < size) :
    (hs : List Header) → ¬ AllLenientHeader mode hs → EnumsIn (headersParts hs) →
    TuplesIn t size (headersParts hs) →
    Misses t (deAll t mode size hs)
  | [], h, _, _ => absurd trivial h
  | h :: hs, hn, he, ht => by
    rw [deAll]
    have he1 := he.sub (m := headerParts h) fun x hx => by simp [headersParts, hx]
    have ht1 := ht.sub (m := headerParts h) fun x hx => by simp [headersParts, hx]
    by_cases hl : LenientHeader mode h
    · exact Misses.right (strict_lenientHeader t size hl) (completable_body hm mode size h hl ht1)
        fun _ => (misses_bodies hm mode size hz hs (fun h' => hn ⟨hl, h'⟩)
          (he.sub fun x hx => by simp [headersParts, hx])
          (ht.sub fun x hx => by simp [headersParts, hx])).left _
    · exact (misses_body hm mode size hz h hl he1 ht1).left _
end

end Dlhn.Body

namespace Dlhn.Derive
open Spec hiding variantFields
open De
open Body (strict_vecU8 strict_bigUint strict_bigInt strict_bigDecimal strict_date strict_dateTime)

variable {t : Target}

mutual
theorem noTextParts_lenient (mode : BuildMode) : (T : RTy) → LenientDerived mode T →
    NoTextParts (readParts T)
  | .unit, _ | .u8, _ | .u16, _ | .u32, _ | .u64, _ | .i8, _ | .i16, _ | .i32, _ | .i64, _
  | .f32, _ | .f64, _ | .bigUint, _ | .numBigUint, _ | .bigInt, _ | .numBigInt, _
  | .bigDecimal, _ | .numBigDecimal, _ | .byteBuf, _ | .dateTime, _ | .date, _ => by
    simp [NoTextParts, readParts]
  | .vec T, h => by
    have ih := noTextParts_lenient mode T h
    exact ⟨by simpa [readParts] using ih.1, fun U => by simpa [readParts] using ih.2 U⟩
  | .tuple Ts, h => by
    have ih := noTextParts_lenient_all mode Ts h
    exact ⟨by simpa [readParts] using ih.1, fun U => by simpa [readParts] using ih.2 U⟩
  | .struct _ (.named fs), h => by
    have ih := noTextParts_lenient_fields mode fs h
    exact ⟨by simpa [readParts] using ih.1, fun U => by simpa [readParts] using ih.2 U⟩
  | .struct _ (.unnamed []), _ => by simp [NoTextParts, readParts, readPartsFields]
  | .struct _ (.unnamed [.mk _ _ T]), h => by
    have ih := noTextParts_lenient mode T h
    exact ⟨by simpa [readParts] using ih.1, fun U => by simpa [readParts] using ih.2 U⟩
  | .struct _ (.unnamed (f :: g :: fs)), h => by
    have ih := noTextParts_lenient_fields mode (f :: g :: fs)
      (by simpa [LenientDerived] using h)
    exact ⟨by simpa [readParts] using ih.1, fun U => by simpa [readParts] using ih.2 U⟩
  | .struct _ .unit, _ => by simp [NoTextParts, readParts]
  | .bool, h | .option _, h | .str, h | .string, h | .bytes, h | .timeDate, h
  | .offsetDateTime, h | .btreeMap _, h | .hashMap _, h | .enum _ _, h | .union _, h
  | .foreign, h => False.elim h
theorem noTextParts_lenient_all (mode : BuildMode) : (Ts : List RTy) → AllLenientDerived mode Ts →
    NoTextParts (readPartsAll Ts)
  | [], _ => by simp [NoTextParts, readPartsAll]
  | T :: Ts, h => by
    have h1 := noTextParts_lenient mode T h.1
    have h2 := noTextParts_lenient_all mode Ts h.2
    exact ⟨by simp [readPartsAll, h1.1, h2.1], fun U => by simp [readPartsAll, h1.2 U, h2.2 U]⟩
theorem noTextParts_lenient_fields (mode : BuildMode) : (fs : List RField) →
    FieldsLenientDerived mode fs → NoTextParts (readPartsFields fs)
  | [], _ => by simp [NoTextParts, readPartsFields]
  | .mk attrs _ T :: fs, h => by
    have h2 := noTextParts_lenient_fields mode fs h.2
    rw [readPartsFields]
    by_cases hs : SkippedDe attrs
    · rw [if_pos hs]; exact h2
    · rw [if_neg hs]
      have h1 := noTextParts_lenient mode T (h.1 hs)
      exact ⟨by simp [h1.1, h2.1], fun U => by simp [h1.2 U, h2.2 U]⟩
end

/-- The skipped fields of types in the list have defaults. -/
def DefaultsIn (env : Env) (l : List RTy) : Prop := ∀ U ∈ l, DefaultedPart env U

theorem DefaultsIn.sub {env : Env} {l m : List RTy} (h : DefaultsIn env l) (hs : ∀ x ∈ m, x ∈ l) :
    DefaultsIn env m := fun U hU => h U (hs _ hU)

theorem strict_fieldsLenient (t : Target) {mode : BuildMode} (env : Env) {fs : List RField}
    (h : FieldsLenientDerived mode fs) : Prog.Strict orRead (deFields t mode env fs) :=
  strict_deFields_noText t mode env fs (noTextParts_lenient_fields mode fs h)

mutual
theorem completable_deTy (hm : 4096 ≤ t.memLimit) (mode : BuildMode) (env : Env) : (T : RTy) →
    LenientDerived mode T → DefaultsIn env (readParts T) → Completable t (deTy t mode env T)
  | .unit, _, _ => by rw [deTy]; exact .pure _
  | .u8, _, _ => by rw [deTy]; exact completable_byte
  | .u16, _, _ => by rw [deTy]; exact completable_u16
  | .u32, _, _ => by rw [deTy]; exact completable_u32
  | .u64, _, _ => by rw [deTy]; exact completable_u64
  | .i8, _, _ => by rw [deTy]; exact completable_i8
  | .i16, _, _ => by rw [deTy]; exact completable_i16
  | .i32, _, _ => by rw [deTy]; exact completable_i32
  | .i64, _, _ => by rw [deTy]; exact completable_i64
  | .f32, _, _ => by rw [deTy]; exact completable_f32
  | .f64, _, _ => by rw [deTy]; exact completable_f64
  | .bigUint, _, _ => by rw [deTy]; exact completable_bigUint
  | .numBigUint, _, _ => by rw [deTy]; exact .wrap (strict_vecU8 t) completable_vecU8 _
  | .bigInt, _, _ => by rw [deTy]; exact completable_bigInt
  | .numBigInt, _, _ => by rw [deTy]; exact .wrap (strict_vecU8 t) completable_vecU8 _
  | .bigDecimal, _, _ => by rw [deTy]; exact completable_bigDecimal
  | .numBigDecimal, _, _ => by rw [deTy]; exact completable_numDecimal
  | .byteBuf, _, _ => by rw [deTy]; exact completable_byteBuf hm
  | .dateTime, _, _ => by rw [deTy]; exact completable_dateTime
  | .date, h, _ => by cases h; rw [deTy]; exact completable_date
  | .vec T, h, hd => by
    rw [deTy]
    have hs := strict_deTy_noText t mode env T (noTextParts_lenient mode T h)
    exact .bind (strict_u64.mapErr orRead) (fun _ => strict_times hs _) completable_u64 fun _ =>
      .times hs (completable_deTy hm mode env T h (hd.sub fun x hx => by simp [readParts, hx])) _
  | .tuple Ts, h, hd => by
    rw [deTy]
    exact completable_deTuple hm mode env Ts h (hd.sub fun x hx => by simp [readParts, hx])
  | .struct name (.named fs), h, hd => by
    rw [deTy]
    exact completable_deFieldsR hm mode env fs h (hd.sub fun x hx => by simp [readParts, hx])
      (hd (.struct name (.named fs)) (by simp [readParts]))
  | .struct _ (.unnamed []), _, _ => by rw [deTy]; exact .pure _
  | .struct _ (.unnamed [.mk _ _ T]), h, hd => by
    rw [deTy]
    exact .wrap (strict_deTy_noText t mode env T (noTextParts_lenient mode T h))
      (completable_deTy hm mode env T h (hd.sub fun x hx => by simp [readParts, hx])) _
  | .struct name (.unnamed (f :: g :: fs)), h, hd => by
    rw [deTy]
    exact completable_deFieldsR hm mode env (f :: g :: fs) (by simpa [LenientDerived] using h)
      (hd.sub fun x hx => by simp [readParts, hx])
      (hd (.struct name (.unnamed (f :: g :: fs))) (by simp [readParts]))
  | .struct _ .unit, _, _ => by rw [deTy]; exact .pure _
  | .bool, h, _ | .option _, h, _ | .str, h, _ | .string, h, _ | .bytes, h, _ | .timeDate, h, _
  | .offsetDateTime, h, _ | .btreeMap _, h, _ | .hashMap _, h, _ | .enum _ _, h, _
  | .union _, h, _ | .foreign, h, _ => False.elim h
theorem completable_deTuple (hm : 4096 ≤ t.memLimit) (mode : BuildMode) (env : Env) :
    (Ts : List RTy) → AllLenientDerived mode Ts → DefaultsIn env (readPartsAll Ts) →
    Completable t (deTuple t mode env Ts)
  | [], _, _ => by rw [deTuple]; exact .pure _
  | T :: Ts, h, hd => by
    rw [deTuple]
    have hs := strict_deTuple_noText t mode env Ts (noTextParts_lenient_all mode Ts h.2)
    exact .bind (strict_deTy_noText t mode env T (noTextParts_lenient mode T h.1))
      (fun _ => strict_wrap hs _)
      (completable_deTy hm mode env T h.1 (hd.sub fun x hx => by simp [readPartsAll, hx]))
      fun _ => .wrap hs (completable_deTuple hm mode env Ts h.2
        (hd.sub fun x hx => by simp [readPartsAll, hx])) _
theorem completable_deFieldsR (hm : 4096 ≤ t.memLimit) (mode : BuildMode) (env : Env) :
    (fs : List RField) → FieldsLenientDerived mode fs → DefaultsIn env (readPartsFields fs) →
    DefaultedFields env fs → Completable t (deFields t mode env fs)
  | [], _, _, _ => by rw [deFields]; exact .pure _
  | .mk attrs n T :: fs, h, hd, hf => by
    rw [deFields]
    have ih := completable_deFieldsR hm mode env fs h.2
      (hd.sub fun x hx => by simp [readPartsFields, hx]) fun f hfm => hf f (by simp [hfm])
    have hst := strict_fieldsLenient t env h.2
    by_cases hs : SkippedDe attrs
    · rw [if_pos ((deSkips_iff attrs).mpr hs)]
      obtain ⟨v, hv⟩ : ∃ v, env.dflt attrs T = some v := hf (.mk attrs n T) (by simp) hs
      rw [hv]
      exact .wrap hst ih _
    · rw [if_neg (fun h' => hs ((deSkips_iff attrs).mp h'))]
      exact .bind (strict_deTy_noText t mode env T (noTextParts_lenient mode T (h.1 hs)))
        (fun _ => strict_wrap hst _) (completable_deTy hm mode env T (h.1 hs)
          (hd.sub fun x hx => by simp [readPartsFields, hs, hx])) fun _ => .wrap hst ih _
end

theorem misses_deVariant (t : Target) (mode : BuildMode) (env : Env) {idx : Nat} :
    (vs : List RVariant) → (n : Nat) → readCount vs ≤ n → Misses t (deVariant t mode env idx n vs)
  | [], n, _ => by rw [deVariant]; exact misses_err _
  | .mk attrs vn fields :: vs, n, h => by
    by_cases hs : SkippedDe attrs
    · rw [deVariant_skip _ _ _ _ hs]
      exact (misses_deVariant t mode env vs n
        (by simpa [readCount, Spec.variantAttrs, hs] using h)).left _
    · cases n with
      | zero => simp [readCount, Spec.variantAttrs, hs] at h
      | succ n =>
        rw [deVariant_succ _ _ _ _ hs]
        exact (misses_deVariant t mode env vs n
          (by simpa [readCount, Spec.variantAttrs, hs] using h)).left _

/-- Enums in the list have less than 65536 variants that can be read. -/
def SmallIn (l : List RTy) : Prop := ∀ name vs, .enum name vs ∈ l → readCount vs < 65536

theorem SmallIn.sub {l m : List RTy} (h : SmallIn l) (hs : ∀ x ∈ m, x ∈ l) : SmallIn m :=
  fun name vs hv => h name vs (hs _ hv)

theorem misses_map {α β : Type} {p : Prog DeErr α} (f : List (String × α) → Prog DeErr β) :
    Misses t (De.deU64 >>= fun count => deEntries t p (t.asUsize count) >>= f) := by
  refine .after (UInt64.ofNat 1) (varint 64 1)
    (fun more => exec_u64_varint t _ 1 (by decide) more) ?_
  rw [asUsize_one, deEntries]
  exact (rejects_string.misses.left _).left _

mutual
theorem misses_deTy (hm : 4096 ≤ t.memLimit) (mode : BuildMode) (env : Env) : (T : RTy) →
    ¬ LenientDerived mode T → DefaultsIn env (readParts T) → SmallIn (readParts T) →
    Misses t (deTy t mode env T)
  | .unit, h, _, _ | .u8, h, _, _ | .u16, h, _, _ | .u32, h, _, _ | .u64, h, _, _ | .i8, h, _, _
  | .i16, h, _, _ | .i32, h, _, _ | .i64, h, _, _ | .f32, h, _, _ | .f64, h, _, _
  | .bigUint, h, _, _ | .numBigUint, h, _, _ | .bigInt, h, _, _ | .numBigInt, h, _, _
  | .bigDecimal, h, _, _ | .numBigDecimal, h, _, _ | .byteBuf, h, _, _ | .dateTime, h, _, _
  | .struct _ .unit, h, _, _ | .struct _ (.unnamed []), h, _, _ => absurd trivial h
  | .date, h, _, _ => by
    rw [deTy]
    cases mode with
    | debug => exact misses_date
    | release => exact absurd rfl h
  | .bool, _, _, _ => by rw [deTy]; exact rejects_bool.misses
  | .option _, _, _, _ => by rw [deTy]; exact rejects_bool.misses.left _
  | .str, _, _, _ => by rw [deTy]; exact misses_panic _
  | .string, _, _, _ => by rw [deTy]; exact rejects_string.misses
  | .bytes, _, _, _ => by rw [deTy]; exact misses_panic _
  | .timeDate, _, _, _ => by rw [deTy]; exact misses_timeDate mode
  | .offsetDateTime, _, _, _ => by rw [deTy]; exact misses_offsetDateTime
  | .btreeMap _, _, _, _ => by rw [deTy]; exact misses_map _
  | .hashMap _, _, _, _ => by rw [deTy]; exact misses_map _
  | .union _, _, _, _ => by rw [deTy]; exact misses_err _
  | .foreign, _, _, _ => by rw [deTy]; exact misses_err _
  | .enum name vs, _, _, hs => by
    rw [deTy]
    have hl := hs name vs (by simp [readParts])
    exact .after (UInt16.ofNat 65535) (varint 16 65535)
      (exec_u16_varint t _ 65535 (by decide)) (misses_deVariant t mode env vs _ (by
        rw [show (UInt16.ofNat 65535).toNat = 65535 from rfl]; omega))
  | .vec T, h, hd, hs => by
    rw [deTy]
    exact (misses_deTy hm mode env T h (hd.sub fun x hx => by simp [readParts, hx])
      (hs.sub fun x hx => by simp [readParts, hx])).counted
  | .tuple Ts, h, hd, hs => by
    rw [deTy]
    exact misses_deTuple hm mode env Ts h (hd.sub fun x hx => by simp [readParts, hx])
      (hs.sub fun x hx => by simp [readParts, hx])
  | .struct name (.named fs), h, hd, hs => by
    rw [deTy]
    exact misses_deFields hm mode env fs h (hd.sub fun x hx => by simp [readParts, hx])
      (hd (.struct name (.named fs)) (by simp [readParts]))
      (hs.sub fun x hx => by simp [readParts, hx])
  | .struct _ (.unnamed [.mk _ _ T]), h, hd, hs => by
    rw [deTy]
    exact (misses_deTy hm mode env T h (hd.sub fun x hx => by simp [readParts, hx])
      (hs.sub fun x hx => by simp [readParts, hx])).left _
  | .struct name (.unnamed (f :: g :: fs)), h, hd, hs => by
    rw [deTy]
    exact misses_deFields hm mode env (f :: g :: fs) (by simpa [LenientDerived] using h)
      (hd.sub fun x hx => by simp [readParts, hx])
      (hd (.struct name (.unnamed (f :: g :: fs))) (by simp [readParts]))
      (hs.sub fun x hx => by simp [readParts, hx])
theorem misses_deTuple (hm : 4096 ≤ t.memLimit) (mode : BuildMode) (env : Env) :
    (Ts : List RTy) → ¬ AllLenientDerived mode Ts → DefaultsIn env (readPartsAll Ts) →
    SmallIn (readPartsAll Ts) → Misses t (deTuple t mode env Ts)
  | [], h, _, _ => absurd trivial h
  | T :: Ts, h, hd, hs => by
    rw [deTuple]
    have hd1 := hd.sub (m := readParts T) fun x hx => by simp [readPartsAll, hx]
    have hs1 := hs.sub (m := readParts T) fun x hx => by simp [readPartsAll, hx]
    by_cases hl : LenientDerived mode T
    · exact .right (strict_deTy_noText t mode env T (noTextParts_lenient mode T hl))
        (completable_deTy hm mode env T hl hd1) fun _ =>
          (misses_deTuple hm mode env Ts (fun h' => h ⟨hl, h'⟩)
            (hd.sub fun x hx => by simp [readPartsAll, hx])
            (hs.sub fun x hx => by simp [readPartsAll, hx])).left _
    · exact (misses_deTy hm mode env T hl hd1 hs1).left _
theorem misses_deFields (hm : 4096 ≤ t.memLimit) (mode : BuildMode) (env : Env) :
    (fs : List RField) → ¬ FieldsLenientDerived mode fs → DefaultsIn env (readPartsFields fs) →
    DefaultedFields env fs → SmallIn (readPartsFields fs) → Misses t (deFields t mode env fs)
  | [], h, _, _, _ => absurd trivial h
  | .mk attrs n T :: fs, h, hd, hf, hs => by
    rw [deFields]
    have hd2 := hd.sub (m := readPartsFields fs) fun x hx => by simp [readPartsFields, hx]
    have hs2 := hs.sub (m := readPartsFields fs) fun x hx => by simp [readPartsFields, hx]
    have hf2 : DefaultedFields env fs := fun f hfm => hf f (by simp [hfm])
    by_cases hk : SkippedDe attrs
    · rw [if_pos ((deSkips_iff attrs).mpr hk)]
      obtain ⟨v, hv⟩ : ∃ v, env.dflt attrs T = some v := hf (.mk attrs n T) (by simp) hk
      rw [hv]
      exact (misses_deFields hm mode env fs (fun h' => h ⟨fun h'' => absurd hk h'', h'⟩)
        hd2 hf2 hs2).left _
    · rw [if_neg (fun h' => hk ((deSkips_iff attrs).mp h'))]
      have hd1 := hd.sub (m := readParts T) fun x hx => by simp [readPartsFields, hk, hx]
      have hs1 := hs.sub (m := readParts T) fun x hx => by simp [readPartsFields, hk, hx]
      by_cases hl : LenientDerived mode T
      · exact .right (strict_deTy_noText t mode env T (noTextParts_lenient mode T hl))
          (completable_deTy hm mode env T hl hd1) fun _ =>
            (misses_deFields hm mode env fs (fun h' => h ⟨fun _ => hl, h'⟩) hd2 hf2 hs2).left _
      · exact (misses_deTy hm mode env T hl hd1 hs1).left _
end

end Dlhn.Derive
