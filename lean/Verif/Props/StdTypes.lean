import Verif.Proof.StdTypes
import Verif.Props.Visit
import Verif.Props.SerImpl
/-!
# C114: types of the standard library

serde's implementations for types of std (Model/StdTypes.lean), on every target. `Writes`,
`Reads`, `Refuses` and `ThereAndBack` are in Spec/StdTypes.lean. For a type parameter the
theorems assume what they conclude for the whole, so they nest.
-/
namespace Dlhn.Props

open Spec De StdTypes

/-! ## Durations and points in time -/

/-- A `Duration` is its seconds and its nanoseconds, and comes back. -/
theorem C114_duration (t : Target) (d : StdDuration) :
    Writes d.serImpl (varint 64 d.secs.toNat ++ varint 32 d.nanos.toNat) ∧
    Reads t StdDuration.deImpl (varint 64 d.secs.toNat ++ varint 32 d.nanos.toNat) d := by
  refine ⟨written_pair (writes_u64 _) (writes_u32 _), fun rest => ?_⟩
  rw [StdDuration.deImpl, run_pair_reads (by decide) (reads_u64 t _) (reads_u32 t _)]
  rw [make_small _ _ d.lt]

/-- From any seconds and nanoseconds comes the `Duration` that long, also when the nanoseconds
are a second or more (which no `Duration` is written as); if its seconds do not fit in 64 bits
the result is an error. -/
theorem C114_duration_input (t : Target) (secs : UInt64) (nanos : UInt32) :
    (secs.toNat + nanos.toNat / 10 ^ 9 < 2 ^ 64 →
      ∃ d : StdDuration, Reads t StdDuration.deImpl (varint 64 secs.toNat ++ varint 32 nanos.toNat) d ∧
        d.secs.toNat * 10 ^ 9 + d.nanos.toNat = secs.toNat * 10 ^ 9 + nanos.toNat) ∧
    (2 ^ 64 ≤ secs.toNat + nanos.toNat / 10 ^ 9 →
      Refuses t StdDuration.deImpl (varint 64 secs.toNat ++ varint 32 nanos.toNat)
        (.message "overflow deserializing Duration")) := by
  refine ⟨fun h => ?_, fun h rest => ?_⟩
  · refine ⟨⟨UInt64.ofNat (secs.toNat + nanos.toNat / 1000000000),
      UInt32.ofNat (nanos.toNat % 1000000000), ?_⟩, fun rest => ?_, ?_⟩
    · rw [UInt32.toNat_ofNat_of_lt'
        (Nat.lt_trans (Nat.mod_lt _ (by decide)) (by decide : 1000000000 < 2 ^ 32))]
      exact Nat.mod_lt _ (by decide)
    · rw [StdDuration.deImpl, run_pair_reads (by decide) (reads_u64 t _) (reads_u32 t _),
        StdDuration.make, if_pos (by simpa using h)]
    · show (UInt64.ofNat _).toNat * _ + (UInt32.ofNat _).toNat = _
      rw [UInt64.toNat_ofNat_of_lt' (by simpa using h), UInt32.toNat_ofNat_of_lt'
        (Nat.lt_trans (Nat.mod_lt _ (by decide)) (by decide : 1000000000 < 2 ^ 32))]
      omega
  · rw [StdDuration.deImpl, run_pair_reads (by decide) (reads_u64 t _) (reads_u32 t _),
      StdDuration.make, if_neg (by simpa using h)]

/-- So one `Duration` has several encodings. -/
theorem C114_duration_forms (t : Target) (d : StdDuration) (h0 : d.secs ≠ 0)
    (h : d.nanos.toNat + 10 ^ 9 < 2 ^ 32) :
    Reads t StdDuration.deImpl
      (varint 64 (d.secs.toNat - 1) ++ varint 32 (d.nanos.toNat + 10 ^ 9)) d := by
  have hs : 0 < d.secs.toNat := by
    rcases Nat.eq_zero_or_pos d.secs.toNat with h1 | h1
    · exact absurd (UInt64.toNat_inj.mp h1) h0
    · exact h1
  have hl := d.secs.toNat_lt
  obtain ⟨d', hr, hd⟩ := (C114_duration_input t (UInt64.ofNat (d.secs.toNat - 1))
    (UInt32.ofNat (d.nanos.toNat + 10 ^ 9))).1 (by
      rw [UInt64.toNat_ofNat_of_lt' (by simp only [UInt64.size]; omega),
        UInt32.toNat_ofNat_of_lt' (by simp only [UInt32.size]; omega)]
      have := d.lt
      omega)
  rw [UInt64.toNat_ofNat_of_lt' (by simp only [UInt64.size]; omega),
    UInt32.toNat_ofNat_of_lt' (by simp only [UInt32.size]; omega)] at hr hd
  have h1 := d.lt
  have h2 := d'.lt
  have hsec : d'.secs.toNat = d.secs.toNat := by omega
  have hnan : d'.nanos.toNat = d.nanos.toNat := by omega
  have : d' = d := by
    rcases d with ⟨s, n, _⟩
    rcases d' with ⟨s', n', _⟩
    obtain rfl := UInt64.toNat_inj.mp hsec
    obtain rfl := UInt32.toNat_inj.mp hnan
    rfl
  exact this ▸ hr

example (t : Target) (h : t = ⟨.w64, 4096⟩) :
    Prog.run t (StdDuration.deImpl.run t)
      ((StdDuration.mk 3 500000000 (by decide)).serImpl.run.exec.1 ++ [7])
      = .ok (⟨3, 500000000, by decide⟩, [7]) ∧
    (StdDuration.mk 3 5 (by decide)).serImpl.run.exec.1 = [3, 5] := by
  subst h
  constructor
  · have := (C114_duration ⟨.w64, 4096⟩ ⟨3, 500000000, by decide⟩)
    rw [this.1]; exact this.2 [7]
  · decide +kernel

/-- A `SystemTime` from the epoch on comes back, if the seconds fit in 64 bits and the reader's
platform has that time. -/
theorem C114_time (t : Target) (maxSecs : Nat) (x : Int) (h0 : 0 ≤ x)
    (h64 : x < 2 ^ 64 * 10 ^ 9) (hmax : x < (maxSecs + 1) * 10 ^ 9) :
    ThereAndBack t (stdTimeSer x) (stdTimeDe maxSecs) x := by
  obtain ⟨n, rfl⟩ := Int.eq_ofNat_of_zero_le h0
  have hq : n / 1000000000 < 2 ^ 64 := by omega
  have hr : n % 1000000000 < 2 ^ 32 := by omega
  refine ⟨varint 64 (n / 1000000000) ++ varint 32 (n % 1000000000), ?_, fun rest => ?_⟩
  · rw [stdTimeSer, if_pos h0]
    have h1 := writes_u64 (UInt64.ofNat (n / 1000000000))
    have h2 := writes_u32 (UInt32.ofNat (n % 1000000000))
    rw [UInt64.toNat_ofNat_of_lt' hq] at h1
    rw [UInt32.toNat_ofNat_of_lt' hr] at h2
    exact written_pair h1 h2
  · have h1 := reads_u64 t (UInt64.ofNat (n / 1000000000))
    have h2 := reads_u32 t (UInt32.ofNat (n % 1000000000))
    rw [UInt64.toNat_ofNat_of_lt' hq] at h1
    rw [UInt32.toNat_ofNat_of_lt' hr] at h2
    have hlt : (UInt32.ofNat (n % 1000000000)).toNat < 1000000000 := by
      rw [UInt32.toNat_ofNat_of_lt' hr]; omega
    rw [stdTimeDe, run_pair_reads (by decide) h1 h2, stdTimeMake, make_small _ _ hlt]
    simp only
    rw [UInt64.toNat_ofNat_of_lt' hq, UInt32.toNat_ofNat_of_lt' hr, if_pos (by omega)]
    simp only [Outcome.ok.injEq, Prod.mk.injEq, and_true]
    exact congrArg Int.ofNat (Nat.div_add_mod' n 1000000000)

/-- One before the epoch cannot be written: an error, with nothing written. -/
theorem C114_time_before (x : Int) (h : x < 0) :
    (stdTimeSer x).run.exec = ([], .err (.message "SystemTime must be later than UNIX_EPOCH")) := by
  rw [fails_iff, stdTimeSer, if_neg (Int.not_le.mpr h), written]

/-- One the reader's platform does not have is an error. -/
theorem C114_time_after (t : Target) (maxSecs : Nat) (secs : UInt64) (nanos : UInt32)
    (h : maxSecs < secs.toNat) :
    ∃ m, Refuses t (stdTimeDe maxSecs) (varint 64 secs.toNat ++ varint 32 nanos.toNat)
      (.message m) := by
  by_cases ho : secs.toNat + nanos.toNat / 1000000000 < 2 ^ 64
  · refine ⟨"overflow deserializing SystemTime", fun rest => ?_⟩
    rw [stdTimeDe, run_pair_reads (by decide) (reads_u64 t _) (reads_u32 t _), stdTimeMake,
      StdDuration.make, if_pos ho]
    simp only
    rw [UInt64.toNat_ofNat_of_lt' ho, if_neg (by omega)]
  · refine ⟨"overflow deserializing Duration", fun rest => ?_⟩
    rw [stdTimeDe, run_pair_reads (by decide) (reads_u64 t _) (reads_u32 t _), stdTimeMake,
      StdDuration.make, if_neg ho]

example (t : Target) : ThereAndBack t (stdTimeSer (1700000000123456789 : Int))
    (stdTimeDe (2 ^ 63 - 1)) (1700000000123456789 : Int) :=
  C114_time t _ _ (by decide) (by decide) (by decide)
example : (stdTimeSer (-1)).run.exec.1 = [] := by decide +kernel

/-! ## Ranges, bounds, results, addresses -/

/-- A `Range` is its start and its end, without more. -/
theorem C114_range (t : Target) {α : Type} (ser : α → SerImpl) (de : Impl α) (a b : α)
    (ea eb : List UInt8) (ha : Writes (ser a) ea) (hb : Writes (ser b) eb)
    (ra : Reads t de ea a) (rb : Reads t de eb b) :
    Writes (rangeSer ser (a, b)) (ea ++ eb) ∧ Reads t (rangeDe de) (ea ++ eb) (a, b) :=
  ⟨written_pair ha hb, fun rest => by rw [rangeDe, run_pair_reads (by decide) ra rb]⟩

/-- A `Bound` is one byte 0, 1 or 2, and the bound. -/
theorem C114_bound (t : Target) {α : Type} (ser : α → SerImpl) (de : Impl α) (a : α)
    (ea : List UInt8) (ha : Writes (ser a) ea) (ra : Reads t de ea a) :
    (Writes (boundSer ser .unbounded) [0] ∧ Reads t (boundDe de) [0] .unbounded) ∧
    (Writes (boundSer ser (.included a)) (1 :: ea) ∧
      Reads t (boundDe de) (1 :: ea) (.included a)) ∧
    (Writes (boundSer ser (.excluded a)) (2 :: ea) ∧
      Reads t (boundDe de) (2 :: ea) (.excluded a)) := by
  have h0 : varint 32 0 = [0] := by decide +kernel
  have h1 : varint 32 1 = [1] := by decide +kernel
  have h2 : varint 32 2 = [2] := by decide +kernel
  refine ⟨⟨?_, fun rest => ?_⟩, ⟨?_, fun rest => ?_⟩, ⟨?_, fun rest => ?_⟩⟩
  · rw [writes_iff, boundSer, written]; exact congrArg (·, none) h0
  · rw [boundDe, ← h0, run_enum t _ _ 3 0 (by omega) (by omega)]; rfl
  · have := written_newtype (name := "Bound") (n := "Included") (i := 1) ha
    rwa [show (1 : UInt32).toNat = 1 from rfl, h1] at this
  · rw [boundDe, List.cons_append, run_enum_cons t _ _ 3 h1 (by omega) (by omega),
      if_neg (by decide), if_pos (by decide)]
    exact run_newtype ra (by rfl) rest
  · have := written_newtype (name := "Bound") (n := "Excluded") (i := 2) ha
    rwa [show (2 : UInt32).toNat = 2 from rfl, h2] at this
  · rw [boundDe, List.cons_append, run_enum_cons t _ _ 3 h2 (by omega) (by omega),
      if_neg (by decide), if_neg (by decide)]
    exact run_newtype ra (by rfl) rest

/-- Another number is an error. -/
theorem C114_bound_other (t : Target) {α : Type} (de : Impl α) (i : Nat) (h3 : 3 ≤ i)
    (h : i < 128) : Refuses t (boundDe de) (varint 32 i) (.message "invalid value: integer") :=
  fun rest => run_enum_bad t _ _ 3 i h3 (by omega) _ rest

/-- A `Result` is a byte 0 and the value or a byte 1 and the error. -/
theorem C114_result (t : Target) {α β : Type} (serA : α → SerImpl) (serB : β → SerImpl)
    (deA : Impl α) (deB : Impl β) :
    (∀ a ea, Writes (serA a) ea → Reads t deA ea a →
      Writes (resultSer serA serB (.inl a)) (0 :: ea) ∧
      Reads t (resultDe deA deB) (0 :: ea) (.inl a)) ∧
    (∀ b eb, Writes (serB b) eb → Reads t deB eb b →
      Writes (resultSer serA serB (.inr b)) (1 :: eb) ∧
      Reads t (resultDe deA deB) (1 :: eb) (.inr b)) := by
  have h0 : varint 32 0 = [0] := by decide +kernel
  have h1 : varint 32 1 = [1] := by decide +kernel
  refine ⟨fun a ea ha ra => ⟨?_, fun rest => ?_⟩, fun b eb hb rb => ⟨?_, fun rest => ?_⟩⟩
  · have := written_newtype (name := "Result") (n := "Ok") (i := 0) ha
    rwa [show (0 : UInt32).toNat = 0 from rfl, h0] at this
  · rw [resultDe, eitherDe, List.cons_append, run_enum_cons t _ _ 2 h0 (by omega) (by omega),
      if_pos (by decide)]
    exact run_newtype ra (by rfl) rest
  · have := written_newtype (name := "Result") (n := "Err") (i := 1) hb
    rwa [show (1 : UInt32).toNat = 1 from rfl, h1] at this
  · rw [resultDe, eitherDe, List.cons_append, run_enum_cons t _ _ 2 h1 (by omega) (by omega),
      if_neg (by decide)]
    exact run_newtype rb (by rfl) rest

example (t : Target) : Reads t (resultDe (rangeDe .u8) (boundDe .u8)) [0, 3, 9] (.inl (3, 9)) ∧
    Reads t (resultDe (rangeDe .u8) (boundDe .u8)) [1, 2, 9] (.inr (.excluded 9)) := by
  have w : ∀ x : UInt8, Writes (.u8 x) [x] := fun x => by rw [writes_iff, written]
  have hr := C114_range t .u8 .u8 3 9 [3] [9] (w 3) (w 9) (reads_u8 t 3) (reads_u8 t 9)
  have hb := C114_bound t .u8 .u8 9 [9] (w 9) (reads_u8 t 9)
  have hres := C114_result t (rangeSer .u8) (boundSer .u8) (rangeDe .u8) (boundDe .u8)
  exact ⟨(hres.1 _ _ hr.1 hr.2).2, (hres.2 _ _ hb.2.2.1 hb.2.2.2).2⟩

/-- An `IpAddr` is a byte 0 and four octets or a byte 1 and sixteen octets. -/
theorem C114_ip (t : Target) (text : List UInt8 → String) :
    (∀ ip : Ipv4, Writes (ipSer text (.inl ip)) [0, ip.a, ip.b, ip.c, ip.d] ∧
      Reads t ipDe [0, ip.a, ip.b, ip.c, ip.d] (.inl ip)) ∧
    (∀ ip : Vector UInt8 16, Writes (ipSer text (.inr ip)) (1 :: ip.toList) ∧
      Reads t ipDe (1 :: ip.toList) (.inr ip.toList)) := by
  have h0 : varint 32 0 = [0] := by decide +kernel
  have h1 : varint 32 1 = [1] := by decide +kernel
  have w6 : ∀ ip : Vector UInt8 16, Writes (ipv6Ser text ip) ip.toList := fun ip => by
    rw [writes_iff, ipv6Ser, written, octetsSer, written, writtenSeq_u8]
  have r6 : ∀ ip : Vector UInt8 16, Reads t ipv6De ip.toList ip.toList := fun ip rest => by
    rw [ipv6De, Impl.run, octetsDe, Impl.run]
    have := run_octetsSeq t ip.toList [] rest 16 (by simp)
    rwa [show ip.toList.length = 16 by simp] at this
  refine ⟨fun ip => ⟨?_, fun rest => ?_⟩, fun ip => ⟨?_, fun rest => ?_⟩⟩
  · have := written_newtype (name := "IpAddr") (n := "V4") (i := 0) (C98_ipv4_value t ip []).1
    rwa [show (0 : UInt32).toNat = 0 from rfl, h0] at this
  · rw [ipDe, eitherDe, List.cons_append, run_enum_cons t _ _ 2 h0 (by omega) (by omega),
      if_pos (by decide)]
    exact run_newtype (fun rest => (C98_ipv4_value t ip rest).2) (by rfl) rest
  · have := written_newtype (name := "IpAddr") (n := "V6") (i := 1) (w6 ip)
    rwa [show (1 : UInt32).toNat = 1 from rfl, h1] at this
  · rw [ipDe, eitherDe, List.cons_append, run_enum_cons t _ _ 2 h1 (by omega) (by omega),
      if_neg (by decide)]
    exact run_newtype (r6 ip) (by rfl) rest

/-- An `OsString` is a byte 0 and the counted bytes; one written on Windows (1) is an error
on Unix. -/
theorem C114_os_string (t : Target) (bs : List UInt8) (h : bs.length < 2 ^ t.ptr.bits) :
    Writes (osStringSer bs) (0 :: varint 64 bs.length ++ bs) ∧
    Reads t osStringDe (0 :: varint 64 bs.length ++ bs) bs ∧
    Refuses t osStringDe [1] (.message "cannot deserialize Windows OS string on Unix") := by
  have h0 : varint 32 0 = [0] := by decide +kernel
  have h1 : varint 32 1 = [1] := by decide +kernel
  have hl : varint 64 bs.length = lengthWire bs.length := by
    rw [lengthWire, Nat.mod_eq_of_lt (lt_64_of_lt_bits h)]
  refine ⟨?_, fun rest => ?_, fun rest => ?_⟩
  · have := written_newtype (name := "OsString") (n := "Unix") (i := 0)
      (p := .seq (some bs.length) (seqOfVals (bs.map .u8))) (enc := lengthWire bs.length ++ bs)
      (by rw [writes_iff, written, writtenSeq_u8])
    rwa [show (0 : UInt32).toNat = 0 from rfl, h0, ← hl] at this
  · rw [osStringDe, hl, List.cons_append, List.cons_append, run_enum_cons t _ _ 2 h0 (by omega) (by omega),
      if_pos (by decide)]
    refine run_newtype (fun rest => ?_) (by rfl) rest
    have := run_seq_collect (t := t) (de := .u8) (enc := fun b => [b]) bs h
      (fun b _ => reads_u8 t b) rest
    rwa [show bs.flatMap (fun b => [b]) = bs by simp] at this
  · rw [osStringDe, ← h1, run_enum t _ _ 2 1 (by omega) (by omega)]
    rfl

/-! ## Checked values -/

/-- A `NonZero` is its number; zero is an error. -/
theorem C114_nonzero (t : Target) {α : Type} (zero : α → Bool) (de : Impl α) (enc : List UInt8)
    (x : α) (h : Reads t de enc x) :
    (zero x = false → Reads t (nonZeroDe zero de) enc x) ∧
    (zero x = true → Refuses t (nonZeroDe zero de) enc (.message "invalid value: integer `0`")) := by
  refine ⟨fun hz rest => ?_, fun hz rest => ?_⟩ <;>
  · rw [nonZeroDe, Impl.run, reads_bind (h rest), hz]; rfl

example (t : Target) : Reads t (nonZeroDe (· == 0) .u8) [5] 5 ∧
    Refuses t (nonZeroDe (· == 0) .u8) [0] (.message "invalid value: integer `0`") :=
  ⟨(C114_nonzero t _ _ _ _ (reads_u8 t 5)).1 rfl, (C114_nonzero t _ _ _ _ (reads_u8 t 0)).2 rfl⟩

/-- A `CString` is its counted bytes without the final NUL; a NUL among them is an error. -/
theorem C114_cstring (t : Target) (hm : 4096 ≤ t.memLimit) (bs : List UInt8)
    (h : bs.length < 2 ^ t.ptr.bits) :
    Writes (cstringSer bs) (varint 64 bs.length ++ bs) ∧
    (0 ∉ bs → Reads t cstringDe (varint 64 bs.length ++ bs) bs) ∧
    (0 ∈ bs → Refuses t cstringDe (varint 64 bs.length ++ bs)
      (.message "nul byte found in provided data")) := by
  have hr : Reads t .byteBuf (varint 64 bs.length ++ bs) bs := fun rest => by
    rw [Impl.run]; exact deByteBuf_block t hm .eof bs rest h
  refine ⟨?_, fun h0 rest => ?_, fun h0 rest => ?_⟩
  · rw [writes_iff, cstringSer, written, counted, lengthWire, Nat.mod_eq_of_lt (lt_64_of_lt_bits h)]
  · rw [cstringDe, Impl.run, reads_bind (hr rest), if_neg h0]; rfl
  · rw [cstringDe, Impl.run, reads_bind (hr rest), if_pos h0]; rfl

/-- A path is the string it is; one that is not UTF-8 is an error on writing, with nothing
written. -/
theorem C114_path (t : Target) (s : String) (h : (utf8 s).length < 2 ^ t.ptr.bits) :
    Writes (pathSer (some s)) (varint 64 (utf8 s).length ++ utf8 s) ∧
    Reads t pathDe (varint 64 (utf8 s).length ++ utf8 s) (some s) ∧
    (pathSer none).run.exec
      = ([], .err (.message "path contains invalid UTF-8 characters")) := by
  have hr : Reads t .string (varint 64 (utf8 s).length ++ utf8 s) s := fun rest => by
    rw [Impl.run]; exact deString_block t .eof s h rest
  refine ⟨?_, fun rest => ?_, by rw [fails_iff, pathSer, written]⟩
  · rw [writes_iff, pathSer, written, counted, lengthWire, Nat.mod_eq_of_lt (lt_64_of_lt_bits h)]
  · rw [pathDe, Impl.run, reads_bind (hr rest)]; rfl

/-- A `usize` is a `u64`; one the reader's pointers do not have is an error (unlike a length,
which is cut off). -/
theorem C114_usize (t : Target) (n : Nat) (hn : n < 2 ^ 64) :
    Writes (usizeSer n) (varint 64 n) ∧
    (n < 2 ^ t.ptr.bits → Reads t (usizeDe t) (varint 64 n) n) ∧
    (2 ^ t.ptr.bits ≤ n →
      Refuses t (usizeDe t) (varint 64 n) (.message "invalid value: integer")) := by
  have e : (UInt64.ofNat n).toNat = n := UInt64.toNat_ofNat_of_lt' hn
  have hr := reads_u64 t (UInt64.ofNat n)
  rw [e] at hr
  refine ⟨by rw [writes_iff, usizeSer, written, e], fun h rest => ?_, fun h rest => ?_⟩
  · rw [usizeDe, Impl.run, reads_bind (hr rest), e, if_pos h]; rfl
  · rw [usizeDe, Impl.run, reads_bind (hr rest), e, if_neg (by omega)]; rfl

/-- An `isize` is an `i64`, in the same way. -/
theorem C114_isize (t : Target) (n : Int) (hn : -2 ^ 63 ≤ n ∧ n < 2 ^ 63) :
    Writes (isizeSer n) (varint 64 (zigzag n)) ∧
    (-2 ^ (t.ptr.bits - 1) ≤ n ∧ n < 2 ^ (t.ptr.bits - 1) →
      Reads t (isizeDe t) (varint 64 (zigzag n)) n) ∧
    (n < -2 ^ (t.ptr.bits - 1) ∨ 2 ^ (t.ptr.bits - 1) ≤ n →
      Refuses t (isizeDe t) (varint 64 (zigzag n)) (.message "invalid value: integer")) := by
  have e : (Int64.ofInt n).toInt = n := Int64.toInt_ofInt_of_le hn.1 hn.2
  have hr := reads_i64 t (Int64.ofInt n)
  rw [e] at hr
  refine ⟨by rw [writes_iff, isizeSer, written, e], fun h rest => ?_, fun h rest => ?_⟩
  · rw [isizeDe, Impl.run, reads_bind (hr rest), e, if_pos h]; rfl
  · rw [isizeDe, Impl.run, reads_bind (hr rest), e, if_neg (by omega)]; rfl

example : Refuses ⟨.w32, 4096⟩ (usizeDe ⟨.w32, 4096⟩) (varint 64 (2 ^ 32))
    (.message "invalid value: integer") := by
  exact (C114_usize ⟨.w32, 4096⟩ (2 ^ 32) (by decide)).2.2 (by decide)

example : Reads ⟨.w32, 4096⟩ (isizeDe ⟨.w32, 4096⟩) (varint 64 (zigzag (-70000))) (-70000) ∧
    Refuses ⟨.w32, 4096⟩ (isizeDe ⟨.w32, 4096⟩) (varint 64 (zigzag (-2147483649)))
      (.message "invalid value: integer") :=
  ⟨(C114_isize ⟨.w32, 4096⟩ (-70000) (by decide)).2.1 (by decide),
    (C114_isize ⟨.w32, 4096⟩ (-2147483649) (by decide)).2.2 (by decide)⟩

/-! ## Sets -/

/-- A set is written in the order it enumerates its elements, and read from every order: the
same elements arrive, each once. -/
theorem C114_set (t : Target) {α : Type} [DecidableEq α] (ser : α → SerImpl) (de : Impl α)
    (enc : α → List UInt8) (xs : List α) (hl : xs.length < 2 ^ t.ptr.bits) (hn : xs.Nodup)
    (hw : ∀ x ∈ xs, Writes (ser x) (enc x)) (hr : ∀ x ∈ xs, Reads t de (enc x) x) :
    Writes (setSer ser xs) (varint 64 xs.length ++ xs.flatMap enc) ∧
    Reads t (setDe de) (varint 64 xs.length ++ xs.flatMap enc) xs := by
  have hlw : varint 64 xs.length = lengthWire xs.length := by
    rw [lengthWire, Nat.mod_eq_of_lt (lt_64_of_lt_bits hl)]
  rw [hlw]
  refine ⟨?_, fun rest => ?_⟩
  · rw [writes_iff, setSer, written, writtenSeq_set xs hw]
  · rw [setDe, Impl.run, reads_bind (run_seq_collect xs hl hr rest),
      foldl_setInsert_nodup xs [] (by simpa using hn)]
    rfl

/-- Whatever elements arrive, repeated or not, the set has exactly those; repeated ones are
neither an error nor noticed. -/
theorem C114_set_input (t : Target) {α : Type} [DecidableEq α] (de : Impl α)
    (enc : α → List UInt8) (xs : List α) (hl : xs.length < 2 ^ t.ptr.bits)
    (hr : ∀ x ∈ xs, Reads t de (enc x) x) :
    ∃ s : List α, Reads t (setDe de) (varint 64 xs.length ++ xs.flatMap enc) s ∧
      s.Nodup ∧ ∀ x, x ∈ s ↔ x ∈ xs := by
  have hlw : varint 64 xs.length = lengthWire xs.length := by
    rw [lengthWire, Nat.mod_eq_of_lt (lt_64_of_lt_bits hl)]
  rw [hlw]
  obtain ⟨h1, h2⟩ := foldl_setInsert xs [] (by simp)
  refine ⟨_, fun rest => ?_, h1, fun x => by simp [h2]⟩
  rw [setDe, Impl.run, reads_bind (run_seq_collect xs hl hr rest)]
  rfl

example (t : Target) : ∃ s : List UInt8, Reads t (setDe .u8) (varint 64 3 ++ [7, 5, 7]) s ∧
    s.Nodup ∧ ∀ x, x ∈ s ↔ x ∈ [7, 5, 7] :=
  C114_set_input t .u8 (fun x => [x]) [7, 5, 7] (by cases t.ptr <;> decide)
    (fun x _ => reads_u8 t x)

/-! ## Hostile input -/

/-- None of them can make the deserializer panic, on any reader, if the type parameters
cannot. -/
theorem C114_returns (t : Target) (hm : 4096 ≤ t.memLimit) {α β : Type} [DecidableEq α]
    (deA : Impl α) (deB : Impl β) (ha : NoTodo deA) (hb : NoTodo deB) (maxSecs : Nat)
    (zero : α → Bool) (size : Nat → Nat) (s : Script) :
    (Prog.runScript t size (StdDuration.deImpl.run t) s).returns ∧
    (Prog.runScript t size ((stdTimeDe maxSecs).run t) s).returns ∧
    (Prog.runScript t size ((rangeDe deA).run t) s).returns ∧
    (Prog.runScript t size ((boundDe deA).run t) s).returns ∧
    (Prog.runScript t size ((resultDe deA deB).run t) s).returns ∧
    (Prog.runScript t size (ipDe.run t) s).returns ∧
    (Prog.runScript t size (osStringDe.run t) s).returns ∧
    (Prog.runScript t size ((nonZeroDe zero deA).run t) s).returns ∧
    (Prog.runScript t size (cstringDe.run t) s).returns ∧
    (Prog.runScript t size (pathDe.run t) s).returns ∧
    (Prog.runScript t size ((usizeDe t).run t) s).returns ∧
    (Prog.runScript t size ((isizeDe t).run t) s).returns ∧
    (Prog.runScript t size ((setDe deA).run t) s).returns := by
  have hpair : ∀ {α β γ : Type} (name n1 n2 : String) (s1 : Impl β) (s2 : Impl γ)
      (finish : β → γ → Except DeErr α), n1 ≠ n2 → NoTodo s1 → NoTodo s2 →
      NoTodo (pairDe name n1 n2 s1 s2 finish) := by
    intro α β γ name n1 n2 s1 s2 finish hn h1 h2
    simp only [pairDe, NoTodo, pairFields, FieldsNoTodo, if_true, if_neg (Ne.symm hn)]
    refine ⟨h1, fun a => ⟨h2, fun b => ?_⟩⟩
    cases finish a b <;> simp [FieldsNoTodo]
  have hvar : ∀ n, NoTodo (variantBelow n) := by
    intro n
    simp only [variantBelow, NoTodo, true_and]
    intro i; split <;> simp [NoTodo]
  have hcollect : ∀ {γ : Type} (de : Impl γ) (n : Nat) (acc : List γ), NoTodo de →
      SeqNoTodo (collectSeq de n acc) := by
    intro γ de n acc h
    induction n generalizing acc with
    | zero => simp [collectSeq, SeqNoTodo]
    | succ n ih =>
      rw [collectSeq, SeqNoTodo]
      refine ⟨h, fun b => ?_⟩
      cases b with
      | none => simp [SeqNoTodo]
      | some b => exact ih _
  have hoct : ∀ (n : Nat) (acc : List UInt8), SeqNoTodo (octetsSeq n acc) := by
    intro n
    induction n with
    | zero => intro acc; simp [octetsSeq, SeqNoTodo]
    | succ n ih =>
      intro acc
      rw [octetsSeq, SeqNoTodo]
      refine ⟨by simp [NoTodo], fun b => ?_⟩
      cases b with
      | none => simp [SeqNoTodo]
      | some b => exact ih _
  have hipv4 : NoTodo Ipv4.deImpl := by
    simp only [Ipv4.deImpl, NoTodo, SeqNoTodo, true_and]
    intro a
    cases a with
    | none => simp [SeqNoTodo]
    | some a =>
      simp only [SeqNoTodo, NoTodo, true_and]
      intro b
      cases b with
      | none => simp [SeqNoTodo]
      | some b =>
        simp only [SeqNoTodo, NoTodo, true_and]
        intro c
        cases c with
        | none => simp [SeqNoTodo]
        | some c =>
          simp only [SeqNoTodo, NoTodo, true_and]
          intro d
          cases d <;> simp [SeqNoTodo]
  have heither : ∀ {γ δ : Type} (name n0 n1 : String) (c : Impl γ) (d : Impl δ), NoTodo c →
      NoTodo d → NoTodo (eitherDe name n0 n1 c d) := by
    intro γ δ name n0 n1 c d hc hd
    rw [eitherDe, NoTodo]
    refine ⟨hvar 2, fun i => ?_⟩
    split
    · exact hc
    · exact hd
  have hu64 : NoTodo Impl.u64 := by simp [NoTodo]
  have hu32 : NoTodo Impl.u32 := by simp [NoTodo]
  have hu8 : NoTodo Impl.u8 := by simp [NoTodo]
  refine ⟨?_, ?_, ?_, ?_, ?_, ?_, ?_, ?_, ?_, ?_, ?_, ?_, ?_⟩ <;> refine C87_returns t hm _ ?_ size s
  · exact hpair _ _ _ _ _ _ (by decide) hu64 hu32
  · exact hpair _ _ _ _ _ _ (by decide) hu64 hu32
  · exact hpair _ _ _ _ _ _ (by decide) ha ha
  · rw [boundDe, NoTodo]
    refine ⟨hvar 3, fun i => ?_⟩
    split
    · simp [VariantNoTodo]
    · split
      · exact ha
      · exact ha
  · exact heither _ _ _ _ _ ha hb
  · refine heither _ _ _ _ _ hipv4 ?_
    rw [ipv6De, NoTodo, octetsDe, NoTodo]
    exact hoct _ _
  · rw [osStringDe, NoTodo]
    refine ⟨hvar 2, fun i => ?_⟩
    split
    · rw [VariantNoTodo, NoTodo]
      exact fun n => hcollect _ _ _ hu8
    · simp [VariantNoTodo]
  · rw [nonZeroDe, NoTodo]
    refine ⟨ha, fun x => ?_⟩
    split <;> simp [NoTodo]
  · rw [cstringDe, NoTodo]
    refine ⟨by simp [NoTodo], fun x => ?_⟩
    split <;> simp [NoTodo]
  · simp [pathDe, NoTodo]
  · rw [usizeDe, NoTodo]
    refine ⟨hu64, fun x => ?_⟩
    split <;> simp [NoTodo]
  · rw [isizeDe, NoTodo]
    refine ⟨by simp [NoTodo], fun x => ?_⟩
    split <;> simp [NoTodo]
  · rw [setDe, NoTodo]
    refine ⟨?_, fun x => by simp [NoTodo]⟩
    rw [NoTodo]
    exact fun n => hcollect _ _ _ ha

example (t : Target) (hm : 4096 ≤ t.memLimit) (size : Nat → Nat) (s : Script) :
    (Prog.runScript t size ((setDe .u8).run t) s).returns :=
  (C114_returns t hm Impl.u8 Impl.u8 (by simp [NoTodo]) (by simp [NoTodo]) 0 (· == 0) size
    s).2.2.2.2.2.2.2.2.2.2.2.2

/-! ## Failing writers and failing elements -/

/-- No writer is lost sight of: each of them reports `Err(Write)` when the writer fails, if
the implementations of the type parameters pass errors on. -/
theorem C114_any_writer {α β : Type} (serA : α → SerImpl) (serB : β → SerImpl)
    (ha : ∀ a, PassesOn (serA a)) (hb : ∀ b, PassesOn (serB b))
    (text : List UInt8 → String) :
    (∀ d : StdDuration, ReportsWriter d.serImpl) ∧
    (∀ x, ReportsWriter (stdTimeSer x)) ∧
    (∀ r, ReportsWriter (rangeSer serA r)) ∧
    (∀ b, ReportsWriter (boundSer serA b)) ∧
    (∀ r, ReportsWriter (resultSer serA serB r)) ∧
    (∀ ip, ReportsWriter (ipSer text ip)) ∧
    (∀ bs, ReportsWriter (osStringSer bs)) ∧
    (∀ bs, ReportsWriter (cstringSer bs)) ∧
    (∀ p, ReportsWriter (pathSer p)) ∧
    (∀ xs, ReportsWriter (setSer serA xs)) := by
  have hpair : ∀ name n1 n2 x y, PassesOn x → PassesOn y →
      PassesOn (pairSer name n1 n2 x y) := by
    intro name n1 n2 x y hx hy
    rw [pairSer, PassesOn, PassesOnStruct]
    refine ⟨hx, fun _ => rfl, ?_⟩
    rw [PassesOnStruct]
    exact ⟨hy, fun _ => rfl, by simp [PassesOnStruct]⟩
  refine ⟨fun d => C97_failing_writer _ ?_, fun x => C97_failing_writer _ ?_,
    fun r => C97_failing_writer _ ?_, fun b => C97_failing_writer _ ?_,
    fun r => C97_failing_writer _ ?_, fun ip => C97_failing_writer _ ?_,
    fun bs => C97_failing_writer _ ?_, fun bs => C97_failing_writer _ ?_,
    fun p => C97_failing_writer _ ?_, fun xs => C97_failing_writer _ ?_⟩
  · exact hpair _ _ _ _ _ (by simp [PassesOn]) (by simp [PassesOn])
  · rw [stdTimeSer]
    split
    · exact hpair _ _ _ _ _ (by simp [PassesOn]) (by simp [PassesOn])
    · simp [PassesOn]
  · exact hpair _ _ _ _ _ (ha _) (ha _)
  · cases b <;> simp [boundSer, PassesOn, ha]
  · cases r <;> simp [resultSer, eitherSer, PassesOn, ha, hb]
  · cases ip with
    | inl ip =>
      simp only [ipSer, eitherSer, PassesOn, Ipv4.serImpl]
      exact passesOn_implOfVal _
    | inr ip =>
      simp only [ipSer, eitherSer, PassesOn, ipv6Ser, octetsSer]
      exact passesOn_seqOfVals _
  · simp only [osStringSer, PassesOn]
    exact passesOn_seqOfVals _
  · simp [cstringSer, PassesOn]
  · cases p <;> simp [pathSer, PassesOn]
  · simp only [setSer, PassesOn]
    induction xs with
    | nil => simp [setSer.go, PassesOnSeq]
    | cons x xs ih =>
      rw [setSer.go, PassesOnSeq]
      exact ⟨ha x, fun _ => rfl, ih⟩

/-- A writer that fails after one byte: the caller of a `Range<u16>` is told. -/
example : (rangeSer SerImpl.u16 (1, 300)).run.runScript [.accept 1, .fail (.other 5)]
    = ([1], .err .write) := by
  decide +kernel

/-- An element that fails stops the whole with its error, after what came before it. -/
theorem C114_errors {α : Type} (ser : α → SerImpl) (a b : α) (ea eb : List UInt8) (e : SerErr) :
    (Fails (ser a) ea e → Fails (rangeSer ser (a, b)) ea e) ∧
    (Writes (ser a) ea → Fails (ser b) eb e → Fails (rangeSer ser (a, b)) (ea ++ eb) e) ∧
    (Fails (ser a) ea e → Fails (boundSer ser (.included a)) (1 :: ea) e ∧
      Fails (boundSer ser (.excluded a)) (2 :: ea) e) ∧
    (∀ (xs ys : List α) (enc : α → List UInt8), (∀ x ∈ xs, Writes (ser x) (enc x)) →
      Fails (ser a) ea e →
      Fails (setSer ser (xs ++ a :: ys))
        (lengthWire (xs ++ a :: ys).length ++ xs.flatMap enc ++ ea) e) := by
  simp only [Fails, fails_iff, writes_iff]
  refine ⟨fun h => ?_, fun h1 h2 => ?_, fun h => ⟨?_, ?_⟩, fun xs ys enc hw h => ?_⟩
  · simp [rangeSer, pairSer, written, writtenStruct, following, h]
  · simp [rangeSer, pairSer, written, writtenStruct, following, h1, h2]
  · have : varint 32 (UInt32.toNat 1) = [1] := by decide +kernel
    rw [boundSer, written, h, this]; rfl
  · have : varint 32 (UInt32.toNat 2) = [2] := by decide +kernel
    rw [boundSer, written, h, this]; rfl
  · have : writtenSeq (setSer.go ser (xs ++ a :: ys)) = (xs.flatMap enc ++ ea, some e) := by
      induction xs with
      | nil => simp [setSer.go, writtenSeq, following, h]
      | cons x xs ih =>
        have h1 := hw x List.mem_cons_self
        have h2 := ih fun y hy => hw y (List.mem_cons_of_mem _ hy)
        simp [setSer.go, writtenSeq, following, h1, h2]
    rw [setSer, written, this]
    simp [List.append_assoc]

/-- A path that is not UTF-8 at the end of a range of paths. -/
example : Fails (rangeSer pathSer (some "a", none)) [1, 97]
    (.message "path contains invalid UTF-8 characters") :=
  (C114_errors pathSer (some "a") none [1, 97] [] _).2.1 (by rw [Writes]; decide +kernel)
    (by rw [Fails]; decide +kernel)

end Dlhn.Props
