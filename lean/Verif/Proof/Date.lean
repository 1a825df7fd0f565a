import Verif.Spec.Date
import Verif.Proof.Records
import Verif.Proof.ProgGen
/-! # Dates and timestamps -/
namespace Dlhn

open Spec

theorem leap_iff (y : Int) : Time.isLeapYear y = true ↔ Leap y := by
  simp only [Time.isLeapYear, Leap, Bool.and_eq_true, beq_iff_eq, Bool.or_eq_true, bne_iff_ne, ne_eq]
  omega

theorem inRange_iff (y : Int32) (o : UInt16) :
    Time.inRange y o = true ↔ ExistingDay y.toInt o.toNat := by
  rw [Time.inRange, decide_eq_true_iff]
  simp only [ExistingDay, Time.daysInYear]
  have := leap_iff y.toInt
  split
  · rename_i h
    have := this.mp h
    simp only [this, and_true]
    omega
  · rename_i h
    have : ¬ Leap y.toInt := fun hl => h (this.mpr hl)
    simp only [this, and_false, or_false]

theorem fromOrdinalDate_eq_some (y : Int32) (o : UInt16) (d : Time.Date) :
    Time.fromOrdinalDate y o = some d ↔ d = ⟨y, o⟩ ∧ ExistingDay y.toInt o.toNat := by
  rw [Time.fromOrdinalDate]
  have := inRange_iff y o
  split
  · rename_i h
    have := this.mp h
    simp only [Option.some.injEq, this, and_true]
    exact eq_comm
  · rename_i h
    simp only [reduceCtorEq, false_iff, not_and]
    exact fun _ hc => h (this.mpr hc)

theorem fromOrdinalDate_eq_none (y : Int32) (o : UInt16) :
    Time.fromOrdinalDate y o = none ↔ ¬ ExistingDay y.toInt o.toNat := by
  rw [Time.fromOrdinalDate]
  have := inRange_iff y o
  split
  · rename_i h
    simp only [reduceCtorEq, false_iff]
    exact fun hc => hc (this.mp h)
  · rename_i h
    simp only [true_iff]
    exact fun hc => h (this.mpr hc)

/-- Existing days are far from the integer limits. -/
theorem ExistingDay.fits {d : Date} (h : ExistingDay d.year.toInt d.ordinal.toNat) : DateFits d := by
  obtain ⟨h1, h2, h3, h4⟩ := h
  exact ⟨by omega, by omega⟩

theorem firstSecond_eq : Time.minTimestamp = firstSecond := by decide +kernel
theorem lastSecond_eq : Time.maxTimestamp = lastSecond := by decide +kernel

theorem fromUnix_some {s : Int64} (h : firstSecond ≤ s.toInt) (h' : s.toInt ≤ lastSecond) :
    Time.fromUnixTimestamp s = some ⟨s.toInt, 0, 0⟩ := by
  rw [Time.fromUnixTimestamp, firstSecond_eq, lastSecond_eq, if_pos ⟨h, h'⟩]

theorem fromUnix_none {s : Int64} (h : s.toInt < firstSecond ∨ lastSecond < s.toInt) :
    Time.fromUnixTimestamp s = none := by
  rw [Time.fromUnixTimestamp, firstSecond_eq, lastSecond_eq, if_neg]
  omega

/-- The result of adding nanoseconds to a whole second. -/
theorem addNanos_spec (s : Int) (n : UInt32) :
    Time.addNanos ⟨s, 0, 0⟩ n =
      if s * 1000000000 + n.toNat < (lastSecond + 1) * 1000000000 then
        some ⟨s + n.toNat / 1000000000, n.toNat % 1000000000, 0⟩
      else none := by
  simp only [Time.addNanos, Nat.zero_add, lastSecond_eq]
  split <;> split <;> first | rfl | omega

theorem toInt_ofInt {s : Int} (h : -2 ^ 63 ≤ s) (h' : s < 2 ^ 63) : (Int64.ofInt s).toInt = s := by
  rw [Int64.toInt_ofInt]
  have hsz : (Int64.size : Int) = 2 ^ 64 := rfl
  exact Int.bmod_eq_of_le (by omega) (by omega)

theorem firstSecond_val : firstSecond = -377705116800 := by decide +kernel
theorem lastSecond_val : lastSecond = 253402300799 := by decide +kernel

theorem valid_fits {d : Time.OffsetDateTime} (h : d.Valid) :
    (Int64.ofInt d.seconds).toInt = d.seconds ∧ (UInt32.ofNat d.nanos).toNat = d.nanos := by
  obtain ⟨h1, h2, h3, h4, h5⟩ := h
  rw [firstSecond_val] at h4
  rw [lastSecond_val] at h5
  exact ⟨toInt_ofInt (by omega) (by omega), by rw [UInt32.toNat_ofNat']; omega⟩

/-! ## Decoding dates from the offsets on the wire -/

theorem subI32_eq (mode : BuildMode) (y : Int32) : subI32 mode y 2000 =
    if mode = .debug ∧ y.toInt < -2 ^ 31 + 2000 then none else some (y - 2000) := by
  have h2 : (2000 : Int32).toInt = 2000 := by decide
  have h1 := Int32.toInt_lt y
  cases mode with
  | release => simp [subI32]
  | debug =>
    simp only [subI32, h2, true_and]
    split <;> split <;> first | rfl | omega

theorem addI32_eq (mode : BuildMode) (y : Int32) : addI32 mode y 2000 =
    if mode = .debug ∧ 2 ^ 31 - 2000 ≤ y.toInt then none else some (y + 2000) := by
  have h2 : (2000 : Int32).toInt = 2000 := by decide
  have h1 := Int32.le_toInt y
  cases mode with
  | release => simp [addI32]
  | debug =>
    simp only [addI32, h2, true_and]
    split <;> split <;> first | rfl | omega

theorem addU16_eq (mode : BuildMode) (o : UInt16) : addU16 mode o 1 =
    if mode = .debug ∧ o = 65535 then none else some (o + 1) := by
  have h2 : (1 : UInt16).toNat = 1 := rfl
  have h3 : o = 65535 ↔ o.toNat = 65535 := by rw [← UInt16.toNat_inj]; rfl
  have h1 := UInt16.toNat_lt o
  cases mode with
  | release => simp [addU16]
  | debug =>
    simp only [addU16, h2, true_and, h3]
    split <;> split <;> first | rfl | omega

theorem subU16_eq (mode : BuildMode) (o : UInt16) : subU16 mode o 1 =
    if mode = .debug ∧ o = 0 then none else some (o - 1) := by
  have h2 : (1 : UInt16).toNat = 1 := rfl
  have h3 : o = 0 ↔ o.toNat = 0 := by rw [← UInt16.toNat_inj]; rfl
  cases mode with
  | release => simp [subU16]
  | debug =>
    simp only [subU16, h2, true_and, h3]
    split <;> split <;> first | rfl | omega

/-- What the decoder of dates does on every input. -/
theorem Date.exec_de_eq (t : Target) (fin : Ending) (mode : BuildMode) (bs : List UInt8) :
    Prog.exec t fin (Date.de mode) bs =
      Prog.next (Prog.exec t fin De.deI32 bs) fun y r =>
        if mode = .debug ∧ 2 ^ 31 - 2000 ≤ y.toInt then .panic .overflow
        else Prog.next (Prog.exec t fin De.deU16 r) fun o r' =>
          if mode = .debug ∧ o = 65535 then .panic .overflow else .ok (⟨y + 2000, o + 1⟩, r') := by
  rw [Date.de, Prog.bind_eq, Prog.exec_bind]
  congr 1
  funext y r
  rw [DATE_YEAR_OFFSET, DATE_ORDINAL_OFFSET, addI32_eq]
  by_cases h1 : mode = .debug ∧ 2 ^ 31 - 2000 ≤ y.toInt
  · simp only [if_pos h1, Prog.exec]
  · simp only [if_neg h1]
    rw [Prog.bind_eq, Prog.exec_bind]
    congr 1
    funext o r'
    rw [addU16_eq]
    by_cases h2 : mode = .debug ∧ o = 65535
    · simp only [if_pos h2, Prog.exec]
    · simp only [if_neg h2]
      rfl

/-- `format::date` is the newtype followed by the calendar check. -/
theorem Format.exec_deDate_eq (t : Target) (fin : Ending) (mode : BuildMode) (bs : List UInt8) :
    Prog.exec t fin (Format.deDate mode) bs =
      Prog.next (Prog.exec t fin (Date.de mode) bs) fun d r =>
        match d.toTime with
        | some x => .ok (x, r)
        | none => .err (.message "invalid value: sequence, expected Read error") := by
  rw [Date.exec_de_eq, Format.deDate, Prog.bind_eq, Prog.exec_bind]
  cases Prog.exec t fin De.deI32 bs with
  | err e => rfl
  | panic p => rfl
  | ok a =>
    obtain ⟨y, r⟩ := a
    simp only [Prog.next_ok, addI32_eq]
    by_cases h1 : mode = .debug ∧ 2 ^ 31 - 2000 ≤ y.toInt
    · simp only [if_pos h1, Prog.exec, Prog.next]
    · simp only [if_neg h1]
      rw [Prog.bind_eq, Prog.exec_bind]
      cases Prog.exec t fin De.deU16 r with
      | err e => rfl
      | panic p => rfl
      | ok a =>
        obtain ⟨o, r'⟩ := a
        simp only [Prog.next_ok, addU16_eq]
        by_cases h2 : mode = .debug ∧ o = 65535
        · simp only [if_pos h2, Prog.exec, Prog.next]
        · simp only [if_neg h2, Prog.next_ok, Date.toTime]
          split <;> rename_i h <;> simp only [h] <;> rfl

/-- `format::date_time` is the newtype followed by the conversion. -/
theorem Format.exec_deDateTime_eq (t : Target) (fin : Ending) (bs : List UInt8) :
    Prog.exec t fin Format.deDateTime bs =
      Prog.next (Prog.exec t fin DateTime.de bs) fun d r =>
        match d.toTime with
        | .ok x => .ok (x, r)
        | .err _ => .err (.message "invalid value: sequence, expected Read error")
        | .panic p => .panic p := by
  rw [DateTime.de, Format.deDateTime, Prog.bind_eq, Prog.bind_eq, Prog.exec_bind, Prog.exec_bind]
  cases Prog.exec t fin De.deI64 bs with
  | err e => rfl
  | panic p => rfl
  | ok a =>
    obtain ⟨y, r⟩ := a
    simp only [Prog.next_ok]
    rw [Prog.bind_eq, Prog.bind_eq, Prog.exec_bind, Prog.exec_bind]
    cases Prog.exec t fin De.deU32 r with
    | err e => rfl
    | panic p => rfl
    | ok a =>
      obtain ⟨o, r'⟩ := a
      simp only [Prog.next_ok, Prog.pure_eq, Prog.exec, DateTime.toTime]
      cases Time.fromUnixTimestamp y with
      | none => rfl
      | some v =>
        simp only
        cases Time.addNanos v o with
        | none => rfl
        | some x => rfl

/-! ## Day numbers -/

theorem dayNumber_year {y : Int} {o : Nat} (h : o ≤ 365 ∨ (o = 366 ∧ Leap y)) :
    dayNumber y o < dayNumber (y + 1) 1 := by
  simp only [dayNumber, Leap] at *
  omega

theorem dayNumber_mono {y z : Int} (h : y ≤ z) : dayNumber y 1 ≤ dayNumber z 1 := by
  simp only [dayNumber]
  omega

end Dlhn
