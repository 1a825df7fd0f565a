import Verif.Proof.Date
/-!
# C49-C54 and the date part of C46: dates and timestamps

`(d.ser mode).exec` is what serializing the `dlhn::Date` `d` into a `Vec<u8>`
writes and returns; `Prog.run t (Date.de mode) bs` is deserializing one from the
slice `bs`; `Format.serDate`/`Format.deDate` are `format::date::serialize` and
`deserialize`, the same for `DateTime`. `mode` says whether the build has
overflow checks. `wireDate y o` below are the bytes of the pair (year offset,
ordinal offset) on the wire.
-/
namespace Dlhn.Props

open Spec

/-- The bytes of a pair `(i32, u16)`. -/
def wireDate (y : Int32) (o : UInt16) : List UInt8 := varint 32 (zigzag y.toInt) ++ varint 16 o.toNat

/-- The bytes of a pair `(i64, u32)`. -/
def wireDateTime (s : Int64) (n : UInt32) : List UInt8 :=
  varint 64 (zigzag s.toInt) ++ varint 32 n.toNat

theorem run_deI32 (t : Target) (fin : Ending) (y : Int32) (rest : List UInt8) :
    Prog.exec t fin De.deI32 (varint 32 (zigzag y.toInt) ++ rest) = .ok (y, rest) :=
  De.deI32_wire t fin y rest

theorem run_deU16 (t : Target) (fin : Ending) (o : UInt16) (rest : List UInt8) :
    Prog.exec t fin De.deU16 (varint 16 o.toNat ++ rest) = .ok (o, rest) := by
  rw [De.deU16, De.exec_u16_varint _ _ _ (UInt16.toNat_lt _), UInt16.ofNat_toNat]

/-! ## C49 round trip -/

/-- Every calendar date converts to `dlhn::Date` and back to itself, and in every
build serializes without overflow to bytes that decode to it. -/
theorem C49_roundtrip (t : Target) (mode mode' : BuildMode) (d : Time.Date) (h : d.Valid) :
    (Date.ofTime d).toTime = some d ∧
    ∃ enc, ((Date.ofTime d).ser mode).exec = (enc, .ok ()) ∧
      ∀ rest, Prog.run t (Date.de mode') (enc ++ rest) = .ok (Date.ofTime d, rest) := by
  refine ⟨(fromOrdinalDate_eq_some _ _ _).mpr ⟨rfl, h⟩, _,
    Date.exec_ser mode (Date.ofTime d) fun _ => ExistingDay.fits h, fun rest =>
    Date.exec_de t _ mode' (Date.ofTime d) (fun _ => ExistingDay.fits h) rest⟩

/-- The same for `format::date`. -/
theorem C49_format (t : Target) (mode mode' : BuildMode) (d : Time.Date) (h : d.Valid) :
    ∃ enc, (Format.serDate mode d).exec = (enc, .ok ()) ∧
      ∀ rest, Prog.run t (Format.deDate mode') (enc ++ rest) = .ok (d, rest) := by
  refine ⟨_, Date.exec_ser mode (Date.ofTime d) fun _ => ExistingDay.fits h, fun rest => ?_⟩
  rw [Prog.run, Format.exec_deDate_eq,
    Date.exec_de t _ mode' (Date.ofTime d) (fun _ => ExistingDay.fits h) rest, Prog.next_ok,
    (C49_roundtrip t mode mode' d h).1]

/-- The bytes of a date are its year relative to 2000 and its zero-based day of
the year. -/
theorem C49_bytes (mode : BuildMode) (d : Time.Date) (h : d.Valid) :
    ((Date.ofTime d).ser mode).exec
      = (varint 32 (zigzag (d.year.toInt - 2000)) ++ varint 16 (d.ordinal.toNat - 1), .ok ()) := by
  rw [Date.exec_ser mode (Date.ofTime d) fun _ => ExistingDay.fits h, dateWire]
  obtain ⟨h1, h2, h3, h4⟩ := h
  have e1 : ((Date.ofTime d).year - 2000).toInt = d.year.toInt - 2000 := by
    show (d.year - 2000).toInt = _
    rw [Int32.toInt_sub]
    exact Int.bmod_eq_of_le (by have : (2000 : Int32).toInt = 2000 := by decide
                                omega) (by have : (2000 : Int32).toInt = 2000 := by decide
                                           omega)
  have e2 : ((Date.ofTime d).ordinal - 1).toNat = d.ordinal.toNat - 1 :=
    UInt16.toNat_sub_of_le _ _ (by rw [UInt16.le_iff_toNat_le]; exact h3)
  rw [e1, e2]

/-- The leap day 2000-12-31 and the last day of the range meet the hypothesis. -/
example : Time.Date.Valid ⟨2000, 366⟩ :=
  ⟨by decide, by decide, by decide, Or.inr ⟨by decide, Or.inr (by decide)⟩⟩
example : Time.Date.Valid ⟨9999, 365⟩ := ⟨by decide, by decide, by decide, Or.inl (by decide)⟩

/-! ## C50 invalid dates -/

/-- Converting a `dlhn::Date` succeeds exactly for existing days and then keeps
year and day. -/
theorem C50_try_into (d : Date) :
    (∀ x, d.toTime = some x ↔ ExistingDay d.year.toInt d.ordinal.toNat ∧ x = ⟨d.year, d.ordinal⟩) ∧
    (d.toTime = none ↔ ¬ ExistingDay d.year.toInt d.ordinal.toNat) := by
  refine ⟨fun x => ?_, fromOrdinalDate_eq_none _ _⟩
  rw [Date.toTime, fromOrdinalDate_eq_some, and_comm]

/-- `format::date::deserialize` on a pair on the wire that does not overflow: the
named day if it exists, an error if not. -/
theorem C50_format (t : Target) (mode : BuildMode) (y : Int32) (o : UInt16)
    (hy : y.toInt < 2 ^ 31 - 2000) (ho : o ≠ 65535) (rest : List UInt8) :
    (ExistingDay (y.toInt + 2000) (o.toNat + 1) →
      Prog.run t (Format.deDate mode) (wireDate y o ++ rest) = .ok (⟨y + 2000, o + 1⟩, rest)) ∧
    (¬ ExistingDay (y.toInt + 2000) (o.toNat + 1) → ∃ e,
      Prog.run t (Format.deDate mode) (wireDate y o ++ rest) = .err e) := by
  have h2 : (2000 : Int32).toInt = 2000 := by decide
  have hl := Int32.le_toInt y
  have e1 : (y + 2000).toInt = y.toInt + 2000 := by
    rw [Int32.toInt_add, h2]
    exact Int.bmod_eq_of_le (by omega) (by omega)
  have ho' : o.toNat ≠ 65535 := fun h => ho (UInt16.toNat_inj.mp h)
  have hol := UInt16.toNat_lt o
  have e2 : (o + 1).toNat = o.toNat + 1 := by
    rw [UInt16.toNat_add]
    have : (1 : UInt16).toNat = 1 := rfl
    rw [this]
    omega
  have hx : Prog.run t (Format.deDate mode) (wireDate y o ++ rest) =
      match Time.fromOrdinalDate (y + 2000) (o + 1) with
      | some x => .ok (x, rest)
      | none => .err (.message "invalid value: sequence, expected Read error") := by
    rw [Prog.run, Format.exec_deDate_eq, Date.exec_de_eq, wireDate, List.append_assoc, run_deI32,
      Prog.next_ok, if_neg (by omega), run_deU16, Prog.next_ok, if_neg (by simp [ho])]
    simp only [Date.toTime, Prog.next_ok]
    cases Time.fromOrdinalDate (y + 2000) (o + 1) <;> rfl
  rw [← e1, ← e2]
  constructor
  · intro h
    rw [hx, (fromOrdinalDate_eq_some _ _ _).mpr ⟨rfl, h⟩]
  · intro h
    rw [hx, (fromOrdinalDate_eq_none _ _).mpr h]
    exact ⟨_, rfl⟩

/-- Whatever the input and the build, a returned date is an existing day. -/
theorem C50_sound (t : Target) (fin : Ending) (mode : BuildMode) (bs rest : List UInt8)
    (d : Time.Date) (h : Prog.exec t fin (Format.deDate mode) bs = .ok (d, rest)) : d.Valid := by
  rw [Format.exec_deDate_eq] at h
  cases hx : Prog.exec t fin (Date.de mode) bs with
  | err e => rw [hx] at h; cases h
  | panic p => rw [hx] at h; cases h
  | ok a =>
    obtain ⟨x, r⟩ := a
    rw [hx, Prog.next_ok] at h
    cases hc : x.toTime with
    | none => rw [hc] at h; cases h
    | some z =>
      rw [hc] at h
      cases h
      obtain ⟨h1, h2⟩ := ((C50_try_into x).1 d).mp hc
      subst h2
      exact h1

/-- In a build without overflow checks the pairs that wrap are rejected too. -/
theorem C50_release (t : Target) (y : Int32) (o : UInt16)
    (h : 2 ^ 31 - 2000 ≤ y.toInt ∨ o = 65535) (rest : List UInt8) :
    ∃ e, Prog.run t (Format.deDate .release) (wireDate y o ++ rest) = .err e := by
  have hx : Prog.run t (Format.deDate .release) (wireDate y o ++ rest) =
      match Time.fromOrdinalDate (y + 2000) (o + 1) with
      | some x => .ok (x, rest)
      | none => .err (.message "invalid value: sequence, expected Read error") := by
    rw [Prog.run, Format.exec_deDate_eq, Date.exec_de_eq, wireDate, List.append_assoc, run_deI32,
      Prog.next_ok, if_neg (by simp), run_deU16, Prog.next_ok, if_neg (by simp)]
    simp only [Date.toTime, Prog.next_ok]
    cases Time.fromOrdinalDate (y + 2000) (o + 1) <;> rfl
  have hn : Time.fromOrdinalDate (y + 2000) (o + 1) = none := by
    rw [fromOrdinalDate_eq_none]
    rintro ⟨h1, h2, h3, h4⟩
    rcases h with h | h
    · have hu := Int32.toInt_lt y
      have : (y + 2000).toInt = y.toInt + 2000 - 2 ^ 32 := by
        have h2 : (2000 : Int32).toInt = 2000 := by decide
        rw [Int32.toInt_add, h2, Int.bmod]
        split <;> omega
      omega
    · subst h
      revert h3
      decide
  rw [hx, hn]
  exact ⟨_, rfl⟩

/-- Day 366 of 2021 does not exist, day 366 of 2020 does. -/
example : ¬ ExistingDay ((21 : Int32).toInt + 2000) ((365 : UInt16).toNat + 1) := by
  rintro ⟨-, -, -, h | ⟨-, h | h⟩⟩
  · revert h; decide
  · revert h; decide
  · revert h; decide
example : ExistingDay ((20 : Int32).toInt + 2000) ((365 : UInt16).toNat + 1) :=
  ⟨by decide, by decide, by decide, Or.inr ⟨by decide, Or.inl ⟨by decide, by decide⟩⟩⟩

/-! ## C51 integer limits -/

/-- What a pair on the wire decodes to, in both builds. -/
theorem C51_decode (t : Target) (mode : BuildMode) (y : Int32) (o : UInt16) (rest : List UInt8) :
    Prog.run t (Date.de mode) (wireDate y o ++ rest) =
      if mode = .debug ∧ (2 ^ 31 - 2000 ≤ y.toInt ∨ o = 65535) then .panic .overflow
      else .ok (⟨y + 2000, o + 1⟩, rest) := by
  rw [Prog.run, Date.exec_de_eq, wireDate, List.append_assoc, run_deI32, Prog.next_ok]
  by_cases h1 : mode = .debug ∧ 2 ^ 31 - 2000 ≤ y.toInt
  · rw [if_pos h1, if_pos ⟨h1.1, Or.inl h1.2⟩]
  · rw [if_neg h1, run_deU16, Prog.next_ok]
    by_cases h2 : mode = .debug ∧ o = 65535
    · rw [if_pos h2, if_pos ⟨h2.1, Or.inr h2.2⟩]
    · rw [if_neg h2, if_neg]
      rintro ⟨hm, h | h⟩
      · exact h1 ⟨hm, h⟩
      · exact h2 ⟨hm, h⟩

/-- Without overflow checks every decoded pair re-encodes to the same pair,
wrapped or not. -/
theorem C51_release_reencode (t : Target) (y : Int32) (o : UInt16) (rest : List UInt8) :
    ∃ d, Prog.run t (Date.de .release) (wireDate y o ++ rest) = .ok (d, rest) ∧
      (d.ser .release).exec = (wireDate y o, .ok ()) := by
  refine ⟨⟨y + 2000, o + 1⟩, ?_, ?_⟩
  · rw [C51_decode, if_neg (by simp)]
  · rw [Date.exec_ser .release _ (by simp), dateWire, wireDate]
    simp

/-- With overflow checks a decoded date serializes again without overflow. -/
theorem C51_debug_reencode (t : Target) (fin : Ending) (bs rest : List UInt8) (d : Date)
    (h : Prog.exec t fin (Date.de .debug) bs = .ok (d, rest)) :
    ∃ enc, (d.ser .debug).exec = (enc, .ok ()) ∧
      ∀ rest', Prog.run t (Date.de .debug) (enc ++ rest') = .ok (d, rest') := by
  have hf : DateFits d := by
    rw [Date.exec_de_eq] at h
    cases hy : Prog.exec t fin De.deI32 bs with
    | err e => rw [hy] at h; cases h
    | panic p => rw [hy] at h; cases h
    | ok a =>
      obtain ⟨y, r⟩ := a
      rw [hy, Prog.next_ok] at h
      split at h
      · cases h
      · rename_i h1
        cases ho : Prog.exec t fin De.deU16 r with
        | err e => rw [ho] at h; cases h
        | panic p => rw [ho] at h; cases h
        | ok a =>
          obtain ⟨o, r'⟩ := a
          rw [ho, Prog.next_ok] at h
          split at h
          · cases h
          · rename_i h2
            simp only [Outcome.ok.injEq, Prod.mk.injEq] at h
            rw [← h.1]
            simp only [true_and] at h1 h2
            have h3 : (2000 : Int32).toInt = 2000 := by decide
            have hl := Int32.le_toInt y
            have e1 : (y + 2000).toInt = y.toInt + 2000 := by
              rw [Int32.toInt_add, h3]
              exact Int.bmod_eq_of_le (by omega) (by omega)
            have ho' : o.toNat ≠ 65535 := fun h => h2 (UInt16.toNat_inj.mp h)
            have hol := UInt16.toNat_lt o
            have e2 : (o + 1).toNat = o.toNat + 1 := by
              rw [UInt16.toNat_add]
              have : (1 : UInt16).toNat = 1 := rfl
              rw [this]
              omega
            exact ⟨e1 ▸ by omega, e2 ▸ by omega⟩
  exact ⟨_, Date.exec_ser .debug d fun _ => hf, fun rest' =>
    Date.exec_de t _ .debug d (fun _ => hf) rest'⟩

/-- Serializing overflows exactly for years below i32::MIN + 2000 and ordinal 0;
with overflow checks the ordinal panics after the year has been written. -/
theorem C51_encode (mode : BuildMode) (d : Date) :
    (d.ser mode).exec =
      if mode = .debug ∧ d.year.toInt < -2 ^ 31 + 2000 then ([], .panic .overflow)
      else if mode = .debug ∧ d.ordinal = 0 then
        (varint 32 (zigzag (d.year - 2000).toInt), .panic .overflow)
      else (wireDate (d.year - 2000) (d.ordinal - 1), .ok ()) := by
  rw [Date.ser, DATE_YEAR_OFFSET, DATE_ORDINAL_OFFSET, subI32_eq, subU16_eq]
  by_cases h1 : mode = .debug ∧ d.year.toInt < -2 ^ 31 + 2000
  · simp only [if_pos h1]
    rfl
  · simp only [if_neg h1]
    rw [WProg.exec_andThen_ok (Ser.exec_serI32 _)]
    by_cases h2 : mode = .debug ∧ d.ordinal = 0
    · simp only [if_pos h2]
      simp [WProg.exec]
    · simp only [if_neg h2]
      rw [Ser.exec_serU16]
      rfl

/-- The limits are reachable. -/
example (t : Target) : Prog.run t (Date.de .debug) (wireDate Int32.maxValue 0 ++ [])
    = .panic .overflow := by
  rw [C51_decode, if_pos (by decide)]
example (t : Target) : Prog.run t (Date.de .release) (wireDate Int32.maxValue 65535 ++ [])
    = .ok (⟨-2147481649, 0⟩, []) := by
  rw [C51_decode, if_neg (by decide)]
  rfl

/-! ## C52 timestamps -/

/-- Every timestamp whose UTC instant is in range converts to `DateTime` and back
to the same instant in UTC, and survives serialization. -/
theorem C52_roundtrip (t : Target) (d : Time.OffsetDateTime) (h : d.Valid) (hu : UtcInRange d) :
    (∃ r, (DateTime.ofTime d).toTime = .ok r ∧ r.instant = d.instant ∧ r.offset = 0) ∧
    ∃ enc, (DateTime.ofTime d).ser.exec = (enc, .ok ()) ∧
      ∀ rest, Prog.run t DateTime.de (enc ++ rest) = .ok (DateTime.ofTime d, rest) := by
  obtain ⟨e1, e2⟩ := valid_fits h
  refine ⟨⟨⟨d.seconds, d.nanos, 0⟩, ?_, rfl, rfl⟩, _, DateTime.exec_ser _, fun rest =>
    DateTime.exec_de t _ _ rest⟩
  have hn := h.1
  obtain ⟨h1, h2⟩ := hu
  rw [DateTime.toTime, DateTime.ofTime]
  simp only [fromUnix_some (s := Int64.ofInt d.seconds) (by omega) (by omega), addNanos_spec]
  rw [if_pos (by rw [e1, e2]; omega), e1, e2]
  simp only [Outcome.ok.injEq, Time.OffsetDateTime.mk.injEq, and_true]
  omega

/-- The same for `format::date_time`. -/
theorem C52_format (t : Target) (d : Time.OffsetDateTime) (h : d.Valid) (hu : UtcInRange d) :
    ∃ enc r, (Format.serDateTime d).exec = (enc, .ok ()) ∧ r.instant = d.instant ∧ r.offset = 0 ∧
      ∀ rest, Prog.run t Format.deDateTime (enc ++ rest) = .ok (r, rest) := by
  obtain ⟨⟨r, h1, h2, h3⟩, enc, h4, h5⟩ := C52_roundtrip t d h hu
  refine ⟨enc, r, h4, h2, h3, fun rest => ?_⟩
  have := h5 rest
  rw [Prog.run] at this
  rw [Prog.run, Format.exec_deDateTime_eq, this, Prog.next_ok, h1]

/-- The bytes of a timestamp are its whole seconds since the epoch and the
nanoseconds within the second; the offset is not written. -/
theorem C52_bytes (d : Time.OffsetDateTime) (h : d.Valid) :
    (DateTime.ofTime d).ser.exec
      = (varint 64 (zigzag d.seconds) ++ varint 32 d.nanos, .ok ()) := by
  obtain ⟨e1, e2⟩ := valid_fits h
  rw [DateTime.exec_ser, dateTimeWire]
  show (varint 64 (zigzag (Int64.ofInt d.seconds).toInt) ++ varint 32 (UInt32.ofNat d.nanos).toNat, _)
    = _
  rw [e1, e2]

/-- A timestamp whose local time is in range but whose UTC instant is not can be
written but not converted back. -/
theorem C52_outside (t : Target) (d : Time.OffsetDateTime) (h : d.Valid) (hu : ¬ UtcInRange d) :
    (DateTime.ofTime d).toTime = .err () ∧
    ∃ enc, (Format.serDateTime d).exec = (enc, .ok ()) ∧
      ∀ rest, ∃ e, Prog.run t Format.deDateTime (enc ++ rest) = .err e := by
  obtain ⟨e1, e2⟩ := valid_fits h
  have hx : (DateTime.ofTime d).toTime = .err () := by
    rw [DateTime.toTime, DateTime.ofTime]
    simp only [fromUnix_none (s := Int64.ofInt d.seconds)
      (by rw [e1]; simp only [UtcInRange] at hu; omega)]
  refine ⟨hx, _, DateTime.exec_ser (DateTime.ofTime d), fun rest => ?_⟩
  rw [Prog.run, Format.exec_deDateTime_eq, DateTime.exec_de t _ _ rest, Prog.next_ok, hx]
  exact ⟨_, rfl⟩

/-- 2022-02-22T22:22:22.5+09:00 meets the hypotheses, also just before the epoch. -/
example : Time.OffsetDateTime.Valid ⟨1645536142, 500000000, 32400⟩ ∧
    UtcInRange ⟨1645536142, 500000000, 32400⟩ := by
  simp only [Time.OffsetDateTime.Valid, UtcInRange, firstSecond_val, lastSecond_val]
  omega
example : Time.OffsetDateTime.Valid ⟨-1, 999999999, 0⟩ ∧ UtcInRange ⟨-1, 999999999, 0⟩ := by
  simp only [Time.OffsetDateTime.Valid, UtcInRange, firstSecond_val, lastSecond_val]
  omega
/-- 9999-12-31T23:59:59-01:00 is a timestamp outside the UTC range. -/
example : Time.OffsetDateTime.Valid ⟨253402304399, 0, -3600⟩ ∧
    ¬ UtcInRange ⟨253402304399, 0, -3600⟩ := by
  simp only [Time.OffsetDateTime.Valid, UtcInRange, firstSecond_val, lastSecond_val]
  omega

/-! ## C53 panics of timestamp conversion -/

/-- The conversion of any pair of seconds and nanoseconds: an error if the second
count is out of range; otherwise the instant given by the sum, or a panic if that
sum lies past the end of the range. -/
theorem C53_try_into (d : DateTime) :
    (d.unixTimestamp.toInt < firstSecond ∨ lastSecond < d.unixTimestamp.toInt →
      d.toTime = .err ()) ∧
    (firstSecond ≤ d.unixTimestamp.toInt → d.unixTimestamp.toInt ≤ lastSecond →
      ((lastSecond + 1) * 1000000000 ≤ d.unixTimestamp.toInt * 1000000000 + d.nanosecond.toNat →
        d.toTime = .panic .timeRange) ∧
      (d.unixTimestamp.toInt * 1000000000 + d.nanosecond.toNat < (lastSecond + 1) * 1000000000 →
        ∃ r, d.toTime = .ok r ∧ r.offset = 0 ∧ r.nanos < 1000000000 ∧
          r.instant = d.unixTimestamp.toInt * 1000000000 + d.nanosecond.toNat)) := by
  refine ⟨fun h => ?_, fun h h' => ⟨fun h2 => ?_, fun h2 => ?_⟩⟩
  · simp only [DateTime.toTime, fromUnix_none h]
  · simp only [DateTime.toTime, fromUnix_some h h', addNanos_spec]
    rw [if_neg (by omega)]
  · refine ⟨⟨d.unixTimestamp.toInt + d.nanosecond.toNat / 1000000000,
      d.nanosecond.toNat % 1000000000, 0⟩, ?_, rfl, Nat.mod_lt _ (by decide), ?_⟩
    · simp only [DateTime.toTime, fromUnix_some h h', addNanos_spec]
      rw [if_pos h2]
    · simp only [Time.OffsetDateTime.instant]
      omega

/-- `format::date_time::deserialize` on any input: it reads what `DateTime`
reads, and returns, fails or panics as the conversion does. -/
theorem C53_format (t : Target) (fin : Ending) (bs : List UInt8) :
    Prog.exec t fin Format.deDateTime bs =
      match Prog.exec t fin DateTime.de bs with
      | .ok (d, rest) => match d.toTime with
        | .ok r => .ok (r, rest)
        | .err _ => .err (.message "invalid value: sequence, expected Read error")
        | .panic p => .panic p
      | .err e => .err e
      | .panic p => .panic p := by
  rw [Format.exec_deDateTime_eq]
  cases Prog.exec t fin DateTime.de bs with
  | ok a => rfl
  | err e => rfl
  | panic p => rfl

/-- Hostile bytes: the last second of the range with one second of nanoseconds
panics. -/
theorem C53_witness (t : Target) (rest : List UInt8) :
    Prog.run t Format.deDateTime (wireDateTime 253402300799 1000000000 ++ rest)
      = .panic .timeRange := by
  have h := DateTime.exec_de t .eof ⟨253402300799, 1000000000⟩ rest
  have e : dateTimeWire ⟨253402300799, 1000000000⟩ = wireDateTime 253402300799 1000000000 := rfl
  rw [e] at h
  rw [Prog.run, C53_format, h]
  have := ((C53_try_into ⟨253402300799, 1000000000⟩).2 (by decide +kernel) (by decide +kernel)).1
    (by decide +kernel)
  simp only [this]

/-- Nanosecond fields of a second and more carry. -/
example : DateTime.toTime ⟨5, 3000000001⟩ = .ok ⟨8, 1, 0⟩ := by decide +kernel

/-! ## C54 order -/

/-- Calendar dates compare as their day numbers. -/
theorem C54_date (a b : Time.Date) (ha : a.Valid) (hb : b.Valid) :
    (Date.ofTime a).lt (Date.ofTime b) = true ↔
      dayNumber a.year.toInt a.ordinal.toNat < dayNumber b.year.toInt b.ordinal.toNat := by
  have key : ∀ {c d : Time.Date}, c.Valid → d.Valid → c.year.toInt < d.year.toInt →
      dayNumber c.year.toInt c.ordinal.toNat < dayNumber d.year.toInt d.ordinal.toNat := by
    intro c d hc hd hlt
    have h1 := dayNumber_year hc.2.2.2
    have h2 := dayNumber_mono (y := c.year.toInt + 1) (z := d.year.toInt) (by omega)
    have h3 : dayNumber d.year.toInt 1 ≤ dayNumber d.year.toInt d.ordinal.toNat := by
      have := hd.2.2.1
      simp only [dayNumber]
      omega
    omega
  simp only [Date.lt, Date.ofTime, Bool.or_eq_true, Bool.and_eq_true, decide_eq_true_eq, beq_iff_eq,
    Int32.lt_iff_toInt_lt, UInt16.lt_iff_toNat_lt, ← Int32.toInt_inj]
  constructor
  · rintro (h | ⟨h1, h2⟩)
    · exact key ha hb h
    · rw [h1]
      simp only [dayNumber]
      omega
  · intro h
    rcases Int.lt_trichotomy a.year.toInt b.year.toInt with h1 | h1 | h1
    · exact Or.inl h1
    · refine Or.inr ⟨h1, ?_⟩
      rw [h1] at h
      simp only [dayNumber] at h
      omega
    · have := key hb ha h1
      omega

/-- Different days have different day numbers, so equality is sameness of day. -/
theorem C54_date_eq (a b : Time.Date) (ha : a.Valid) (hb : b.Valid) :
    Date.ofTime a = Date.ofTime b ↔
      dayNumber a.year.toInt a.ordinal.toNat = dayNumber b.year.toInt b.ordinal.toNat := by
  constructor
  · intro h
    cases a; cases b
    cases h
    rfl
  · intro h
    have h1 := C54_date a b ha hb
    have h2 := C54_date b a hb ha
    have n1 : ¬ (Date.ofTime a).lt (Date.ofTime b) = true := fun hc => by
      have := h1.mp hc; omega
    have n2 : ¬ (Date.ofTime b).lt (Date.ofTime a) = true := fun hc => by
      have := h2.mp hc; omega
    simp only [Date.lt, Date.ofTime, Bool.or_eq_true, Bool.and_eq_true, decide_eq_true_eq,
      beq_iff_eq, Int32.lt_iff_toInt_lt, UInt16.lt_iff_toNat_lt, ← Int32.toInt_inj, not_or, not_and]
      at n1 n2
    have hy : a.year.toInt = b.year.toInt := by omega
    have ho : a.ordinal.toNat = b.ordinal.toNat := by
      have := n1.2 hy
      have := n2.2 hy.symm
      omega
    have e1 := Int32.toInt_inj.mp hy
    have e2 := UInt16.toNat_inj.mp ho
    simp only [Date.ofTime, e1, e2]

/-- Converted timestamps compare as instants, whatever their offsets. -/
theorem C54_date_time (a b : Time.OffsetDateTime) (ha : a.Valid) (hb : b.Valid) :
    ((DateTime.ofTime a).lt (DateTime.ofTime b) = true ↔ a.instant < b.instant) ∧
    (DateTime.ofTime a = DateTime.ofTime b ↔ a.instant = b.instant) := by
  obtain ⟨a1, a2⟩ := valid_fits ha
  obtain ⟨b1, b2⟩ := valid_fits hb
  have an := ha.1
  have bn := hb.1
  constructor
  · simp only [DateTime.lt, DateTime.ofTime, Bool.or_eq_true, Bool.and_eq_true, decide_eq_true_eq,
      beq_iff_eq, Int64.lt_iff_toInt_lt, UInt32.lt_iff_toNat_lt, ← Int64.toInt_inj, a1, a2, b1, b2,
      Time.OffsetDateTime.instant]
    omega
  · simp only [DateTime.ofTime, DateTime.mk.injEq, ← Int64.toInt_inj, ← UInt32.toNat_inj, a1, a2, b1,
      b2, Time.OffsetDateTime.instant]
    omega

/-- A decoded `DateTime` with a large nanosecond field can compare as earlier
although it denotes a later instant. -/
theorem C54_unnormalised :
    DateTime.lt ⟨0, 2000000000⟩ ⟨1, 0⟩ = true ∧
    ∃ x y, DateTime.toTime ⟨0, 2000000000⟩ = .ok x ∧ DateTime.toTime ⟨1, 0⟩ = .ok y ∧
      y.instant < x.instant :=
  ⟨by decide +kernel, ⟨2, 0, 0⟩, ⟨1, 0, 0⟩, by decide +kernel, by decide +kernel, by decide⟩

/-- 2021-12-31 is before 2022-01-01; the day numbers are consecutive. -/
example : dayNumber 2022 1 = dayNumber 2021 365 + 1 := by decide
example : dayNumber 2021 1 = dayNumber 2020 366 + 1 := by decide

/-! ## C46 for dates and timestamps -/

/-- `format::date` makes the same writer calls as the newtype. -/
theorem C46_date (mode : BuildMode) (d : Time.Date) (s : WScript) :
    (Format.serDate mode d).runScript s = ((Date.ofTime d).ser mode).runScript s := rfl

/-- `format::date` reads what the newtype reads and then converts it. -/
theorem C46_date_de (t : Target) (fin : Ending) (mode : BuildMode) (bs : List UInt8) :
    Prog.exec t fin (Format.deDate mode) bs =
      match Prog.exec t fin (Date.de mode) bs with
      | .ok (d, rest) => match d.toTime with
        | some x => .ok (x, rest)
        | none => .err (.message "invalid value: sequence, expected Read error")
      | .err e => .err e
      | .panic p => .panic p := by
  rw [Format.exec_deDate_eq]
  cases Prog.exec t fin (Date.de mode) bs with
  | ok a => rfl
  | err e => rfl
  | panic p => rfl

/-- `format::date_time` makes the same writer calls as the newtype. -/
theorem C46_date_time (d : Time.OffsetDateTime) (s : WScript) :
    (Format.serDateTime d).runScript s = (DateTime.ofTime d).ser.runScript s := rfl

end Dlhn.Props
