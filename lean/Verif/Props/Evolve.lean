import Verif.Proof.Evolve
import Verif.Proof.DeExact
import Verif.Proof.Visit
import Verif.Props.Ints
/-!
# C89-C91: data written with one type and read with another

What becomes of stored data when the type they were written with changes: numbers
of another width (C89), changes that keep all data readable (C90) and changes that
do not (C91). `Spec.Same` and `Spec.Becomes` are in Spec/Evolve.lean.
-/
namespace Dlhn.Props

open Spec De

/-! ## C89 numbers of another width -/

theorem bytes_u16 (n : UInt16) : (Ser.toVec (.u16 n)).1 = varint 16 n.toNat := by
  rw [Ser.toVec, Ser.ser, Ser.exec_serU16]
theorem bytes_i16 (n : Int16) : (Ser.toVec (.i16 n)).1 = varint 16 (zigzag n.toInt) := by
  rw [Ser.toVec, Ser.ser, Ser.exec_serI16]
theorem read_u16 (t : Target) {bs r : List UInt8} {v : Nat} (h : varintDecode 16 bs = some (v, r)) :
    Prog.run t (de t .u16) bs = .ok (.u16 (UInt16.ofNat v), r) := by
  rw [Prog.run, de]
  refine exec_wrap t _ _ _ _ _ _ ?_
  rw [deU16, exec_u16, h, ofDec]
theorem read_i16 (t : Target) {bs r : List UInt8} {v : Nat} (h : varintDecode 16 bs = some (v, r)) :
    Prog.run t (de t .i16) bs = .ok (.i16 (ZigZag.decodeI16 (UInt16.ofNat v)), r) := by
  rw [Prog.run, de]
  refine exec_wrap t _ _ _ _ _ _ ?_
  rw [deI16, Prog.bind_eq, Prog.exec_bind, exec_u16, h, ofDec, Prog.next_ok]
  rfl
theorem decodeI16_ofNat (v : Nat) (h : v < 2 ^ 16) :
    (ZigZag.decodeI16 (UInt16.ofNat v)).toInt = unzigzag v := by
  rw [ZigZag.decodeI16_spec, UInt16.toNat_ofNat', Nat.mod_eq_of_lt h]
theorem zigzag_i16 (n : Int16) : zigzag n.toInt < 2 ^ 16 := by
  rw [← ZigZag.encodeI16_spec]; exact UInt16.toNat_lt _

theorem bytes_u32 (n : UInt32) : (Ser.toVec (.u32 n)).1 = varint 32 n.toNat := by
  rw [Ser.toVec, Ser.ser, Ser.exec_serU32]
theorem bytes_i32 (n : Int32) : (Ser.toVec (.i32 n)).1 = varint 32 (zigzag n.toInt) := by
  rw [Ser.toVec, Ser.ser, Ser.exec_serI32]
theorem read_u32 (t : Target) {bs r : List UInt8} {v : Nat} (h : varintDecode 32 bs = some (v, r)) :
    Prog.run t (de t .u32) bs = .ok (.u32 (UInt32.ofNat v), r) := by
  rw [Prog.run, de]
  refine exec_wrap t _ _ _ _ _ _ ?_
  rw [deU32, exec_u32, h, ofDec]
theorem read_i32 (t : Target) {bs r : List UInt8} {v : Nat} (h : varintDecode 32 bs = some (v, r)) :
    Prog.run t (de t .i32) bs = .ok (.i32 (ZigZag.decodeI32 (UInt32.ofNat v)), r) := by
  rw [Prog.run, de]
  refine exec_wrap t _ _ _ _ _ _ ?_
  rw [deI32, Prog.bind_eq, Prog.exec_bind, exec_u32, h, ofDec, Prog.next_ok]
  rfl
theorem decodeI32_ofNat (v : Nat) (h : v < 2 ^ 32) :
    (ZigZag.decodeI32 (UInt32.ofNat v)).toInt = unzigzag v := by
  rw [ZigZag.decodeI32_spec, UInt32.toNat_ofNat', Nat.mod_eq_of_lt h]
theorem zigzag_i32 (n : Int32) : zigzag n.toInt < 2 ^ 32 := by
  rw [← ZigZag.encodeI32_spec]; exact UInt32.toNat_lt _

theorem bytes_u64 (n : UInt64) : (Ser.toVec (.u64 n)).1 = varint 64 n.toNat := by
  rw [Ser.toVec, Ser.ser, Ser.exec_serU64]
theorem bytes_i64 (n : Int64) : (Ser.toVec (.i64 n)).1 = varint 64 (zigzag n.toInt) := by
  rw [Ser.toVec, Ser.ser, Ser.exec_serI64]
theorem read_u64 (t : Target) {bs r : List UInt8} {v : Nat} (h : varintDecode 64 bs = some (v, r)) :
    Prog.run t (de t .u64) bs = .ok (.u64 (UInt64.ofNat v), r) := by
  rw [Prog.run, de]
  refine exec_wrap t _ _ _ _ _ _ ?_
  rw [deU64, exec_u64, h, ofDec]
theorem read_i64 (t : Target) {bs r : List UInt8} {v : Nat} (h : varintDecode 64 bs = some (v, r)) :
    Prog.run t (de t .i64) bs = .ok (.i64 (ZigZag.decodeI64 (UInt64.ofNat v)), r) := by
  rw [Prog.run, de]
  refine exec_wrap t _ _ _ _ _ _ ?_
  rw [deI64, Prog.bind_eq, Prog.exec_bind, exec_u64, h, ofDec, Prog.next_ok]
  rfl
theorem decodeI64_ofNat (v : Nat) (h : v < 2 ^ 64) :
    (ZigZag.decodeI64 (UInt64.ofNat v)).toInt = unzigzag v := by
  rw [ZigZag.decodeI64_spec, UInt64.toNat_ofNat', Nat.mod_eq_of_lt h]
theorem zigzag_i64 (n : Int64) : zigzag n.toInt < 2 ^ 64 := by
  rw [← ZigZag.encodeI64_spec]; exact UInt64.toNat_lt _

theorem zigzag_lt_iff (x : Int) (k : Nat) : zigzag x < 2 * 2 ^ k ↔ -(2 : Int) ^ k ≤ x ∧ x < 2 ^ k := by
  have e : ((2 ^ k : Nat) : Int) = 2 ^ k := by push_cast; rfl
  rw [zigzag, ← e]
  split <;> omega

theorem unzigzag_even (n : Nat) : unzigzag (2 * n) = n := by
  rw [unzigzag, if_pos (by omega)]; omega

/-- A `u16` read as a `u32`: the same number below 2^14, from there on 32 times
the number. No error is reported. -/
theorem C89_u16_u32 (t : Target) (n : UInt16) (more : List UInt8) :
    ∃ m, Prog.run t (de t .u32) ((Ser.toVec (.u16 n)).1 ++ more) = .ok (.u32 m, more) ∧
      m.toNat = if n.toNat < 2 ^ 14 then n.toNat else 32 * n.toNat := by
  have hn := n.toNat_lt
  refine ⟨_, by rw [bytes_u16]; exact read_u32 t (varintDecode_widen 16 32 n.toNat (by decide) (by decide)
    (by decide) hn more), ?_⟩
  simp only [Nat.reduceDiv, Nat.reducePow, Nat.reduceSub]
  rw [UInt32.toNat_ofNat', Nat.mod_eq_of_lt]
  split <;> omega

/-- An `i16` read as an `i32`: the same number from -2^13 up to 2^13; otherwise a
number that is never negative. -/
theorem C89_i16_i32 (t : Target) (n : Int16) (more : List UInt8) :
    ∃ m, Prog.run t (de t .i32) ((Ser.toVec (.i16 n)).1 ++ more) = .ok (.i32 m, more) ∧
      m.toInt = if -2 ^ 13 ≤ n.toInt ∧ n.toInt < 2 ^ 13 then n.toInt
        else 16 * (zigzag n.toInt : Int) := by
  have hn := zigzag_i16 n
  have hz := zigzag_lt_iff n.toInt 13
  refine ⟨_, by rw [bytes_i16]; exact read_i32 t (varintDecode_widen 16 32 _ (by decide) (by decide)
    (by decide) hn more), ?_⟩
  simp only [Nat.reduceDiv, Nat.reducePow, Nat.reduceSub, Nat.reduceMul] at hz hn ⊢
  rw [decodeI32_ofNat _ (by split <;> omega)]
  by_cases h : zigzag n.toInt < 16384
  · rw [if_pos h, if_pos (hz.mp h), ZigZag.unzigzag_zigzag]
  · rw [if_neg h, if_neg (fun hc => h (hz.mpr hc)), show 32 * zigzag n.toInt = 2 * (16 * zigzag n.toInt) by omega,
      unzigzag_even]
    omega

/-- A `u16` read as a `u64`: the same number below 2^14, from there on 32 times
the number. No error is reported. -/
theorem C89_u16_u64 (t : Target) (n : UInt16) (more : List UInt8) :
    ∃ m, Prog.run t (de t .u64) ((Ser.toVec (.u16 n)).1 ++ more) = .ok (.u64 m, more) ∧
      m.toNat = if n.toNat < 2 ^ 14 then n.toNat else 32 * n.toNat := by
  have hn := n.toNat_lt
  refine ⟨_, by rw [bytes_u16]; exact read_u64 t (varintDecode_widen 16 64 n.toNat (by decide) (by decide)
    (by decide) hn more), ?_⟩
  simp only [Nat.reduceDiv, Nat.reducePow, Nat.reduceSub]
  rw [UInt64.toNat_ofNat', Nat.mod_eq_of_lt]
  split <;> omega

/-- An `i16` read as an `i64`: the same number from -2^13 up to 2^13; otherwise a
number that is never negative. -/
theorem C89_i16_i64 (t : Target) (n : Int16) (more : List UInt8) :
    ∃ m, Prog.run t (de t .i64) ((Ser.toVec (.i16 n)).1 ++ more) = .ok (.i64 m, more) ∧
      m.toInt = if -2 ^ 13 ≤ n.toInt ∧ n.toInt < 2 ^ 13 then n.toInt
        else 16 * (zigzag n.toInt : Int) := by
  have hn := zigzag_i16 n
  have hz := zigzag_lt_iff n.toInt 13
  refine ⟨_, by rw [bytes_i16]; exact read_i64 t (varintDecode_widen 16 64 _ (by decide) (by decide)
    (by decide) hn more), ?_⟩
  simp only [Nat.reduceDiv, Nat.reducePow, Nat.reduceSub, Nat.reduceMul] at hz hn ⊢
  rw [decodeI64_ofNat _ (by split <;> omega)]
  by_cases h : zigzag n.toInt < 16384
  · rw [if_pos h, if_pos (hz.mp h), ZigZag.unzigzag_zigzag]
  · rw [if_neg h, if_neg (fun hc => h (hz.mpr hc)), show 32 * zigzag n.toInt = 2 * (16 * zigzag n.toInt) by omega,
      unzigzag_even]
    omega

/-- A `u32` read as a `u64`: the same number below 2^28, from there on 8 times
the number. No error is reported. -/
theorem C89_u32_u64 (t : Target) (n : UInt32) (more : List UInt8) :
    ∃ m, Prog.run t (de t .u64) ((Ser.toVec (.u32 n)).1 ++ more) = .ok (.u64 m, more) ∧
      m.toNat = if n.toNat < 2 ^ 28 then n.toNat else 8 * n.toNat := by
  have hn := n.toNat_lt
  refine ⟨_, by rw [bytes_u32]; exact read_u64 t (varintDecode_widen 32 64 n.toNat (by decide) (by decide)
    (by decide) hn more), ?_⟩
  simp only [Nat.reduceDiv, Nat.reducePow, Nat.reduceSub]
  rw [UInt64.toNat_ofNat', Nat.mod_eq_of_lt]
  split <;> omega

/-- An `i32` read as an `i64`: the same number from -2^27 up to 2^27; otherwise a
number that is never negative. -/
theorem C89_i32_i64 (t : Target) (n : Int32) (more : List UInt8) :
    ∃ m, Prog.run t (de t .i64) ((Ser.toVec (.i32 n)).1 ++ more) = .ok (.i64 m, more) ∧
      m.toInt = if -2 ^ 27 ≤ n.toInt ∧ n.toInt < 2 ^ 27 then n.toInt
        else 4 * (zigzag n.toInt : Int) := by
  have hn := zigzag_i32 n
  have hz := zigzag_lt_iff n.toInt 27
  refine ⟨_, by rw [bytes_i32]; exact read_i64 t (varintDecode_widen 32 64 _ (by decide) (by decide)
    (by decide) hn more), ?_⟩
  simp only [Nat.reduceDiv, Nat.reducePow, Nat.reduceSub, Nat.reduceMul] at hz hn ⊢
  rw [decodeI64_ofNat _ (by split <;> omega)]
  by_cases h : zigzag n.toInt < 268435456
  · rw [if_pos h, if_pos (hz.mp h), ZigZag.unzigzag_zigzag]
  · rw [if_neg h, if_neg (fun hc => h (hz.mpr hc)), show 8 * zigzag n.toInt = 2 * (4 * zigzag n.toInt) by omega,
      unzigzag_even]
    omega

/-- A `u32` read as a `u16`: always a number and never an error, the same number
exactly below 2^14; up to 2^21 a 32th of it; from there on, bytes of it are left
to be taken for what follows. -/
theorem C89_u32_u16 (t : Target) (n : UInt32) (more : List UInt8) :
    ∃ m r, Prog.run t (de t .u16) ((Ser.toVec (.u32 n)).1 ++ more) = .ok (.u16 m, r) ∧
      (m.toNat = n.toNat ↔ n.toNat < 2 ^ 14) ∧
      (2 ^ 14 ≤ n.toNat → n.toNat < 2 ^ 21 → m.toNat = n.toNat / 32) ∧
      (n.toNat < 2 ^ 21 → r = more) ∧
      (2 ^ 21 ≤ n.toNat → ∃ left, left ≠ [] ∧ r = left ++ more) := by
  have hn := n.toNat_lt
  rw [bytes_u32]
  by_cases h1 : n.toNat < 2 ^ 14
  · refine ⟨UInt16.ofNat n.toNat, more, ?_, ?_, by omega, fun _ => rfl, by omega⟩
    · refine read_u16 t ?_
      have hg : groups n.toNat ≤ 2 := groups_le 2 _ (by decide) h1
      rw [varint_small 32 16 n.toNat (by omega) hg]
      exact varintDecode_varint 16 _ (by decide) (by omega) more
    · rw [UInt16.toNat_ofNat', Nat.mod_eq_of_lt (by omega)]; simpa using h1
  · have h1 : 2 ^ 14 ≤ n.toNat := by omega
    have hne := narrow_ne 32 16 n.toNat (by decide) (by decide) (by decide) h1
    by_cases h2 : n.toNat < 2 ^ 21
    · have hd := narrow_next 32 16 n.toNat (by decide) (by decide) (by decide) h1 h2 more
      have he : n.toNat / 32 < 2 ^ 16 := by omega
      refine ⟨UInt16.ofNat (n.toNat / 32), more, read_u16 t hd, ?_, ?_, fun _ => rfl, by omega⟩
      · rw [UInt16.toNat_ofNat', Nat.mod_eq_of_lt he]; omega
      · intro _ _; rw [UInt16.toNat_ofNat', Nat.mod_eq_of_lt he]
    · obtain ⟨left, hl, hd⟩ := narrow_rest 32 16 n.toNat (by decide) (by decide) (by decide)
        (show 2 ^ 21 ≤ n.toNat by omega) more
      refine ⟨_, left ++ more, read_u16 t hd, ?_, by omega, by omega, fun _ => ⟨left, hl, rfl⟩⟩
      rw [UInt16.toNat_ofNat', Nat.mod_eq_of_lt (Nat.mod_lt _ (by decide))]
      exact ⟨fun h => absurd h hne, by omega⟩

/-- An `i32` read as an `i16`: always a number and never an error, the same number
exactly from -2^13 up to 2^13. -/
theorem C89_i32_i16 (t : Target) (n : Int32) (more : List UInt8) :
    ∃ m r, Prog.run t (de t .i16) ((Ser.toVec (.i32 n)).1 ++ more) = .ok (.i16 m, r) ∧
      (m.toInt = n.toInt ↔ -2 ^ 13 ≤ n.toInt ∧ n.toInt < 2 ^ 13) ∧
      (-2 ^ 13 ≤ n.toInt → n.toInt < 2 ^ 13 → r = more) := by
  obtain ⟨m, r, h, h1, -, h3, -⟩ := C89_u32_u16 t (ZigZag.encodeI32 n) more
  have hz := zigzag_lt_iff n.toInt 13
  rw [bytes_u32, ZigZag.encodeI32_spec] at h
  rw [ZigZag.encodeI32_spec] at h1 h3
  rw [bytes_i32]
  cases hd : varintDecode 16 (varint 32 (zigzag n.toInt) ++ more) with
  | none => rw [Prog.run, de, Prog.bind_eq, Prog.exec_bind, deU16, exec_u16, hd] at h; cases h
  | some vr =>
    obtain ⟨v, r'⟩ := vr
    rw [read_u16 t hd] at h
    simp only [Outcome.ok.injEq, Prod.mk.injEq, Val.u16.injEq] at h
    obtain ⟨rfl, rfl⟩ := h
    refine ⟨_, _, read_i16 t hd, ?_, fun ha hb => h3 ?_⟩
    · rw [ZigZag.decodeI16_spec]
      constructor
      · intro he
        have := congrArg zigzag he
        rw [ZigZag.zigzag_unzigzag] at this
        exact hz.mp (h1.mp this)
      · intro hc
        rw [h1.mpr (hz.mpr hc), ZigZag.unzigzag_zigzag]
    · have := hz.mpr ⟨ha, hb⟩
      omega

/-- A `u64` read as a `u16`: always a number and never an error, the same number
exactly below 2^14; up to 2^21 a 32th of it; from there on, bytes of it are left
to be taken for what follows. -/
theorem C89_u64_u16 (t : Target) (n : UInt64) (more : List UInt8) :
    ∃ m r, Prog.run t (de t .u16) ((Ser.toVec (.u64 n)).1 ++ more) = .ok (.u16 m, r) ∧
      (m.toNat = n.toNat ↔ n.toNat < 2 ^ 14) ∧
      (2 ^ 14 ≤ n.toNat → n.toNat < 2 ^ 21 → m.toNat = n.toNat / 32) ∧
      (n.toNat < 2 ^ 21 → r = more) ∧
      (2 ^ 21 ≤ n.toNat → ∃ left, left ≠ [] ∧ r = left ++ more) := by
  have hn := n.toNat_lt
  rw [bytes_u64]
  by_cases h1 : n.toNat < 2 ^ 14
  · refine ⟨UInt16.ofNat n.toNat, more, ?_, ?_, by omega, fun _ => rfl, by omega⟩
    · refine read_u16 t ?_
      have hg : groups n.toNat ≤ 2 := groups_le 2 _ (by decide) h1
      rw [varint_small 64 16 n.toNat (by omega) hg]
      exact varintDecode_varint 16 _ (by decide) (by omega) more
    · rw [UInt16.toNat_ofNat', Nat.mod_eq_of_lt (by omega)]; simpa using h1
  · have h1 : 2 ^ 14 ≤ n.toNat := by omega
    have hne := narrow_ne 64 16 n.toNat (by decide) (by decide) (by decide) h1
    by_cases h2 : n.toNat < 2 ^ 21
    · have hd := narrow_next 64 16 n.toNat (by decide) (by decide) (by decide) h1 h2 more
      have he : n.toNat / 32 < 2 ^ 16 := by omega
      refine ⟨UInt16.ofNat (n.toNat / 32), more, read_u16 t hd, ?_, ?_, fun _ => rfl, by omega⟩
      · rw [UInt16.toNat_ofNat', Nat.mod_eq_of_lt he]; omega
      · intro _ _; rw [UInt16.toNat_ofNat', Nat.mod_eq_of_lt he]
    · obtain ⟨left, hl, hd⟩ := narrow_rest 64 16 n.toNat (by decide) (by decide) (by decide)
        (show 2 ^ 21 ≤ n.toNat by omega) more
      refine ⟨_, left ++ more, read_u16 t hd, ?_, by omega, by omega, fun _ => ⟨left, hl, rfl⟩⟩
      rw [UInt16.toNat_ofNat', Nat.mod_eq_of_lt (Nat.mod_lt _ (by decide))]
      exact ⟨fun h => absurd h hne, by omega⟩

/-- An `i64` read as an `i16`: always a number and never an error, the same number
exactly from -2^13 up to 2^13. -/
theorem C89_i64_i16 (t : Target) (n : Int64) (more : List UInt8) :
    ∃ m r, Prog.run t (de t .i16) ((Ser.toVec (.i64 n)).1 ++ more) = .ok (.i16 m, r) ∧
      (m.toInt = n.toInt ↔ -2 ^ 13 ≤ n.toInt ∧ n.toInt < 2 ^ 13) ∧
      (-2 ^ 13 ≤ n.toInt → n.toInt < 2 ^ 13 → r = more) := by
  obtain ⟨m, r, h, h1, -, h3, -⟩ := C89_u64_u16 t (ZigZag.encodeI64 n) more
  have hz := zigzag_lt_iff n.toInt 13
  rw [bytes_u64, ZigZag.encodeI64_spec] at h
  rw [ZigZag.encodeI64_spec] at h1 h3
  rw [bytes_i64]
  cases hd : varintDecode 16 (varint 64 (zigzag n.toInt) ++ more) with
  | none => rw [Prog.run, de, Prog.bind_eq, Prog.exec_bind, deU16, exec_u16, hd] at h; cases h
  | some vr =>
    obtain ⟨v, r'⟩ := vr
    rw [read_u16 t hd] at h
    simp only [Outcome.ok.injEq, Prod.mk.injEq, Val.u16.injEq] at h
    obtain ⟨rfl, rfl⟩ := h
    refine ⟨_, _, read_i16 t hd, ?_, fun ha hb => h3 ?_⟩
    · rw [ZigZag.decodeI16_spec]
      constructor
      · intro he
        have := congrArg zigzag he
        rw [ZigZag.zigzag_unzigzag] at this
        exact hz.mp (h1.mp this)
      · intro hc
        rw [h1.mpr (hz.mpr hc), ZigZag.unzigzag_zigzag]
    · have := hz.mpr ⟨ha, hb⟩
      omega

/-- A `u64` read as a `u32`: always a number and never an error, the same number
exactly below 2^28; up to 2^35 a 8th of it; from there on, bytes of it are left
to be taken for what follows. -/
theorem C89_u64_u32 (t : Target) (n : UInt64) (more : List UInt8) :
    ∃ m r, Prog.run t (de t .u32) ((Ser.toVec (.u64 n)).1 ++ more) = .ok (.u32 m, r) ∧
      (m.toNat = n.toNat ↔ n.toNat < 2 ^ 28) ∧
      (2 ^ 28 ≤ n.toNat → n.toNat < 2 ^ 35 → m.toNat = n.toNat / 8) ∧
      (n.toNat < 2 ^ 35 → r = more) ∧
      (2 ^ 35 ≤ n.toNat → ∃ left, left ≠ [] ∧ r = left ++ more) := by
  have hn := n.toNat_lt
  rw [bytes_u64]
  by_cases h1 : n.toNat < 2 ^ 28
  · refine ⟨UInt32.ofNat n.toNat, more, ?_, ?_, by omega, fun _ => rfl, by omega⟩
    · refine read_u32 t ?_
      have hg : groups n.toNat ≤ 4 := groups_le 4 _ (by decide) h1
      rw [varint_small 64 32 n.toNat (by omega) hg]
      exact varintDecode_varint 32 _ (by decide) (by omega) more
    · rw [UInt32.toNat_ofNat', Nat.mod_eq_of_lt (by omega)]; simpa using h1
  · have h1 : 2 ^ 28 ≤ n.toNat := by omega
    have hne := narrow_ne 64 32 n.toNat (by decide) (by decide) (by decide) h1
    by_cases h2 : n.toNat < 2 ^ 35
    · have hd := narrow_next 64 32 n.toNat (by decide) (by decide) (by decide) h1 h2 more
      have he : n.toNat / 8 < 2 ^ 32 := by omega
      refine ⟨UInt32.ofNat (n.toNat / 8), more, read_u32 t hd, ?_, ?_, fun _ => rfl, by omega⟩
      · rw [UInt32.toNat_ofNat', Nat.mod_eq_of_lt he]; omega
      · intro _ _; rw [UInt32.toNat_ofNat', Nat.mod_eq_of_lt he]
    · obtain ⟨left, hl, hd⟩ := narrow_rest 64 32 n.toNat (by decide) (by decide) (by decide)
        (show 2 ^ 35 ≤ n.toNat by omega) more
      refine ⟨_, left ++ more, read_u32 t hd, ?_, by omega, by omega, fun _ => ⟨left, hl, rfl⟩⟩
      rw [UInt32.toNat_ofNat', Nat.mod_eq_of_lt (Nat.mod_lt _ (by decide))]
      exact ⟨fun h => absurd h hne, by omega⟩

/-- An `i64` read as an `i32`: always a number and never an error, the same number
exactly from -2^27 up to 2^27. -/
theorem C89_i64_i32 (t : Target) (n : Int64) (more : List UInt8) :
    ∃ m r, Prog.run t (de t .i32) ((Ser.toVec (.i64 n)).1 ++ more) = .ok (.i32 m, r) ∧
      (m.toInt = n.toInt ↔ -2 ^ 27 ≤ n.toInt ∧ n.toInt < 2 ^ 27) ∧
      (-2 ^ 27 ≤ n.toInt → n.toInt < 2 ^ 27 → r = more) := by
  obtain ⟨m, r, h, h1, -, h3, -⟩ := C89_u64_u32 t (ZigZag.encodeI64 n) more
  have hz := zigzag_lt_iff n.toInt 27
  rw [bytes_u64, ZigZag.encodeI64_spec] at h
  rw [ZigZag.encodeI64_spec] at h1 h3
  rw [bytes_i64]
  cases hd : varintDecode 32 (varint 64 (zigzag n.toInt) ++ more) with
  | none => rw [Prog.run, de, Prog.bind_eq, Prog.exec_bind, deU32, exec_u32, hd] at h; cases h
  | some vr =>
    obtain ⟨v, r'⟩ := vr
    rw [read_u32 t hd] at h
    simp only [Outcome.ok.injEq, Prod.mk.injEq, Val.u32.injEq] at h
    obtain ⟨rfl, rfl⟩ := h
    refine ⟨_, _, read_i32 t hd, ?_, fun ha hb => h3 ?_⟩
    · rw [ZigZag.decodeI32_spec]
      constructor
      · intro he
        have := congrArg zigzag he
        rw [ZigZag.zigzag_unzigzag] at this
        exact hz.mp (h1.mp this)
      · intro hc
        rw [h1.mpr (hz.mpr hc), ZigZag.unzigzag_zigzag]
    · have := hz.mpr ⟨ha, hb⟩
      omega

/-- An `i16` read as a `u16` and the other way round: the position in
0, -1, 1, -2, 2, ... and the number at that position. -/
theorem C89_sign16 (t : Target) (more : List UInt8) :
    (∀ n : Int16, ∃ m, Prog.run t (de t .u16) ((Ser.toVec (.i16 n)).1 ++ more) = .ok (.u16 m, more) ∧
      m.toNat = zigzag n.toInt) ∧
    (∀ n : UInt16, ∃ m, Prog.run t (de t .i16) ((Ser.toVec (.u16 n)).1 ++ more) = .ok (.i16 m, more) ∧
      m.toInt = unzigzag n.toNat) := by
  refine ⟨fun n => ⟨_, (by rw [bytes_i16]; exact read_u16 t (varintDecode_varint 16 _ (by decide)
      (zigzag_i16 n) more)), ?_⟩, fun n => ⟨_, (by rw [bytes_u16]; exact read_i16 t (varintDecode_varint 16 _ (by decide)
      n.toNat_lt more)), decodeI16_ofNat _ n.toNat_lt⟩⟩
  rw [UInt16.toNat_ofNat', Nat.mod_eq_of_lt (zigzag_i16 n)]

/-- An `i32` read as a `u32` and the other way round: the position in
0, -1, 1, -2, 2, ... and the number at that position. -/
theorem C89_sign32 (t : Target) (more : List UInt8) :
    (∀ n : Int32, ∃ m, Prog.run t (de t .u32) ((Ser.toVec (.i32 n)).1 ++ more) = .ok (.u32 m, more) ∧
      m.toNat = zigzag n.toInt) ∧
    (∀ n : UInt32, ∃ m, Prog.run t (de t .i32) ((Ser.toVec (.u32 n)).1 ++ more) = .ok (.i32 m, more) ∧
      m.toInt = unzigzag n.toNat) := by
  refine ⟨fun n => ⟨_, (by rw [bytes_i32]; exact read_u32 t (varintDecode_varint 32 _ (by decide)
      (zigzag_i32 n) more)), ?_⟩, fun n => ⟨_, (by rw [bytes_u32]; exact read_i32 t (varintDecode_varint 32 _ (by decide)
      n.toNat_lt more)), decodeI32_ofNat _ n.toNat_lt⟩⟩
  rw [UInt32.toNat_ofNat', Nat.mod_eq_of_lt (zigzag_i32 n)]

/-- An `i64` read as a `u64` and the other way round: the position in
0, -1, 1, -2, 2, ... and the number at that position. -/
theorem C89_sign64 (t : Target) (more : List UInt8) :
    (∀ n : Int64, ∃ m, Prog.run t (de t .u64) ((Ser.toVec (.i64 n)).1 ++ more) = .ok (.u64 m, more) ∧
      m.toNat = zigzag n.toInt) ∧
    (∀ n : UInt64, ∃ m, Prog.run t (de t .i64) ((Ser.toVec (.u64 n)).1 ++ more) = .ok (.i64 m, more) ∧
      m.toInt = unzigzag n.toNat) := by
  refine ⟨fun n => ⟨_, (by rw [bytes_i64]; exact read_u64 t (varintDecode_varint 64 _ (by decide)
      (zigzag_i64 n) more)), ?_⟩, fun n => ⟨_, (by rw [bytes_u64]; exact read_i64 t (varintDecode_varint 64 _ (by decide)
      n.toNat_lt more)), decodeI64_ofNat _ n.toNat_lt⟩⟩
  rw [UInt64.toNat_ofNat', Nat.mod_eq_of_lt (zigzag_i64 n)]

/-- A `u8` read as a `u16`, and a `u16` read as a `u8`: the same number and nothing
of it left over, exactly below 2^7. -/
theorem C89_u8 (t : Target) (more : List UInt8) :
    (∀ n : UInt8, (∃ m, Prog.run t (de t .u16) ((Ser.toVec (.u8 n)).1 ++ more) = .ok (.u16 m, more) ∧
      m.toNat = n.toNat) ↔ n.toNat < 2 ^ 7) ∧
    (∀ n : UInt16, (∃ m, Prog.run t (de t .u8) ((Ser.toVec (.u16 n)).1 ++ more) = .ok (.u8 m, more) ∧
      m.toNat = n.toNat) ↔ n.toNat < 2 ^ 7) := by
  have h8 : ∀ n : UInt8, (Ser.toVec (.u8 n)).1 = [n] := fun n => by
    rw [Ser.toVec, Ser.exec_ser _ (by simp [Serializable]) (by simp [Fits]), wire]
  refine ⟨fun n => ?_, fun n => ?_⟩
  · rw [h8]
    constructor
    · rintro ⟨m, h, -⟩
      cases Nat.lt_or_ge n.toNat 128 with
      | inl h => exact h
      | inr hn =>
        exfalso
        have hl : 1 ≤ leadingOnes n := one_le_leadingOnes n hn
        cases hd : varintDecode 16 ([n] ++ more) with
        | none => rw [Prog.run, de, Prog.bind_eq, Prog.exec_bind, deU16, exec_u16, hd] at h; cases h
        | some vr =>
          obtain ⟨v, r⟩ := vr
          rw [read_u16 t hd] at h
          simp only [Outcome.ok.injEq, Prod.mk.injEq] at h
          obtain ⟨-, h2, h3, -⟩ := varintDecode_bound 16 (by decide) n more r v hd
          rw [h.2] at h3
          have h4 := congrArg List.length h3
          rw [List.length_drop] at h4
          rw [extraBytes] at h2 h4
          omega
    · intro h
      refine ⟨UInt16.ofNat n.toNat, read_u16 t ?_, by rw [UInt16.toNat_ofNat', Nat.mod_eq_of_lt (by omega)]⟩
      have := varintDecode_varint 16 n.toNat (by decide) (by omega) more
      rwa [varint_byte 16 _ (by decide) h, UInt8.ofNat_toNat] at this
  · rw [bytes_u16]
    constructor
    · rintro ⟨m, h, hm⟩
      have hl : (varint 16 n.toNat).length = 1 := by
        cases hv : varint 16 n.toNat with
        | nil => exact absurd hv (by rw [varint]; split <;> simp)
        | cons b bs =>
          rw [hv, Prog.run, de, List.cons_append] at h
          have := exec_wrap t .eof deU8 Val.u8 b (b :: (bs ++ more)) (bs ++ more) (deU8_wire t .eof b _)
          rw [this] at h
          simp only [Outcome.ok.injEq, Prod.mk.injEq] at h
          have := congrArg List.length h.2
          simp at this
          simp [this]
      rw [length_varint, varintLen] at hl
      cases Nat.lt_or_ge n.toNat 128 with
      | inl h => exact h
      | inr hn => have := le_groups 1 n.toNat hn; omega
    · intro h
      refine ⟨UInt8.ofNat n.toNat, ?_, by rw [UInt8.toNat_ofNat', Nat.mod_eq_of_lt (by omega)]⟩
      rw [varint_byte 16 _ (by decide) h, Prog.run, de]
      exact exec_wrap t _ _ _ _ _ _ (deU8_wire t _ _ more)

/-- A `u8` read as a wider type. Below 2^7 it is taken for the number written, or for
the number at that position of 0, -1, 1, -2, 2, ... if the type is signed. From there
on, 1 to 8 of the bytes that follow are taken as part of the number, and it is an
error if there are fewer. -/
theorem C89_from_u8 (t : Target) (ty : Ty) (hty : ty ∈ wideTypes) (n : UInt8) (more : List UInt8) :
    (n.toNat < 2 ^ 7 → ∃ v, Has t ty v ∧ writtenAs v = some n.toNat ∧
      Prog.run t (de t ty) ((Ser.toVec (.u8 n)).1 ++ more) = .ok (v, more)) ∧
    (2 ^ 7 ≤ n.toNat → ∃ k, 1 ≤ k ∧ k ≤ 8 ∧
      (more.length < k → Prog.run t (de t ty) ((Ser.toVec (.u8 n)).1 ++ more) = .err .read) ∧
      (k ≤ more.length → ∃ v, Prog.run t (de t ty) ((Ser.toVec (.u8 n)).1 ++ more)
        = .ok (v, more.drop k))) := by
  have h8 : (Ser.toVec (.u8 n)).1 = [n] := by
    rw [Ser.toVec, Ser.exec_ser _ (by simp [Serializable]) (by simp [Fits]), wire]
  rw [h8]
  have hd : ∀ w, w = 16 ∨ w = 32 ∨ w = 64 → n.toNat < 2 ^ 7 →
      varintDecode w ([n] ++ more) = some (n.toNat, more) := by
    intro w hw h
    have hb : n.toNat < 2 ^ w := by rcases hw with rfl | rfl | rfl <;> omega
    have := varintDecode_varint w n.toNat hw hb more
    rwa [varint_byte w _ (by omega) h, UInt8.ofNat_toNat] at this
  have hk : ∀ w, w = 16 ∨ w = 32 ∨ w = 64 → 2 ^ 7 ≤ n.toNat →
      1 ≤ extraBytes w n ∧ extraBytes w n ≤ 8 := by
    intro w hw h
    have hl : 1 ≤ leadingOnes n := one_le_leadingOnes n h
    rw [extraBytes]
    rcases hw with rfl | rfl | rfl <;> omega
  simp only [wideTypes, List.mem_cons, List.not_mem_nil, or_false] at hty
  rcases hty with rfl | rfl | rfl | rfl | rfl | rfl
  · refine ⟨fun h => ⟨_, ⟨_, rfl⟩, ?_, read_u16 t (hd 16 (by decide) h)⟩, fun h =>
      ⟨_, (hk 16 (by decide) h).1, (hk 16 (by decide) h).2, C06_u16 t n more⟩⟩
    rw [writtenAs, UInt16.toNat_ofNat', Nat.mod_eq_of_lt (by omega)]
  · refine ⟨fun h => ⟨_, ⟨_, rfl⟩, ?_, read_u32 t (hd 32 (by decide) h)⟩, fun h =>
      ⟨_, (hk 32 (by decide) h).1, (hk 32 (by decide) h).2, C06_u32 t n more⟩⟩
    rw [writtenAs, UInt32.toNat_ofNat', Nat.mod_eq_of_lt (by omega)]
  · refine ⟨fun h => ⟨_, ⟨_, rfl⟩, ?_, read_u64 t (hd 64 (by decide) h)⟩, fun h =>
      ⟨_, (hk 64 (by decide) h).1, (hk 64 (by decide) h).2, C06_u64 t n more⟩⟩
    rw [writtenAs, UInt64.toNat_ofNat', Nat.mod_eq_of_lt (by omega)]
  · refine ⟨fun h => ⟨_, ⟨_, rfl⟩, ?_, read_i16 t (hd 16 (by decide) h)⟩, fun h =>
      ⟨_, (hk 16 (by decide) h).1, (hk 16 (by decide) h).2, C06_i16 t n more⟩⟩
    rw [writtenAs, decodeI16_ofNat _ (by omega), ZigZag.zigzag_unzigzag]
  · refine ⟨fun h => ⟨_, ⟨_, rfl⟩, ?_, read_i32 t (hd 32 (by decide) h)⟩, fun h =>
      ⟨_, (hk 32 (by decide) h).1, (hk 32 (by decide) h).2, C06_i32 t n more⟩⟩
    rw [writtenAs, decodeI32_ofNat _ (by omega), ZigZag.zigzag_unzigzag]
  · refine ⟨fun h => ⟨_, ⟨_, rfl⟩, ?_, read_i64 t (hd 64 (by decide) h)⟩, fun h =>
      ⟨_, (hk 64 (by decide) h).1, (hk 64 (by decide) h).2, C06_i64 t n more⟩⟩
    rw [writtenAs, decodeI64_ofNat _ (by omega), ZigZag.zigzag_unzigzag]

/-- A wider number read as a `u8`: never an error. Numbers written as a number below
2^7 are read as that number; of all others bytes are left to be taken for what
follows. -/
theorem C89_to_u8 (t : Target) (v : Val) (n : Nat) (hv : writtenAs v = some n) (more : List UInt8) :
    (n < 2 ^ 7 → Prog.run t (de t .u8) ((Ser.toVec v).1 ++ more) = .ok (.u8 (UInt8.ofNat n), more)) ∧
    (2 ^ 7 ≤ n → ∃ b left, left ≠ [] ∧
      Prog.run t (de t .u8) ((Ser.toVec v).1 ++ more) = .ok (.u8 b, left ++ more)) := by
  have hb : ∃ w, 16 ≤ w ∧ (Ser.toVec v).1 = varint w n := by
    cases v <;> simp only [writtenAs, Option.some.injEq, reduceCtorEq] at hv <;> subst hv
    · exact ⟨16, by omega, bytes_i16 _⟩
    · exact ⟨32, by omega, bytes_i32 _⟩
    · exact ⟨64, by omega, bytes_i64 _⟩
    · exact ⟨16, by omega, bytes_u16 _⟩
    · exact ⟨32, by omega, bytes_u32 _⟩
    · exact ⟨64, by omega, bytes_u64 _⟩
  obtain ⟨w, hw, hb⟩ := hb
  have hr : ∀ b rest, Prog.run t (de t .u8) (b :: rest) = .ok (.u8 b, rest) := by
    intro b rest
    rw [Prog.run, de]
    exact exec_wrap t .eof deU8 Val.u8 b (b :: rest) rest (deU8_wire t .eof b _)
  rw [hb]
  refine ⟨fun h => ?_, fun h => ?_⟩
  · rw [varint_byte w _ hw h]
    exact hr _ _
  · have hl : 2 ≤ (varint w n).length := by
      have h1 := le_groups 1 n h
      have h2 : 2 ≤ w / 8 + 1 := by omega
      rw [length_varint, varintLen]
      omega
    match hx : varint w n, hl with
    | b :: c :: cs, _ => exact ⟨b, c :: cs, by simp, hr _ _⟩

/-- An `i8` is written as the `u8` of the same bits, and read as the `i8` of the same
bits; so the above says what becomes of it too. -/
theorem C89_i8 (t : Target) :
    (∀ n : Int8, Ser.toVec (.i8 n) = Ser.toVec (.u8 n.toUInt8) ∧
      (0 ≤ n.toInt → (n.toUInt8.toNat : Int) = n.toInt) ∧
      (n.toInt < 0 → (n.toUInt8.toNat : Int) = n.toInt + 2 ^ 8)) ∧
    ∀ bs rest, ∀ n : Int8, Prog.run t (de t .i8) bs = .ok (.i8 n, rest) ↔
      Prog.run t (de t .u8) bs = .ok (.u8 n.toUInt8, rest) := by
  refine ⟨fun n => ⟨rfl, ?_, ?_⟩, fun bs rest n => ?_⟩
  · intro h
    rw [show n.toUInt8.toNat = n.toBitVec.toNat from rfl]
    have : n.toInt = n.toBitVec.toInt := rfl
    rw [this] at h ⊢
    rw [BitVec.toInt_eq_toNat_cond] at h ⊢
    have := n.toBitVec.isLt
    split at h <;> split <;> omega
  · intro h
    rw [show n.toUInt8.toNat = n.toBitVec.toNat from rfl]
    have : n.toInt = n.toBitVec.toInt := rfl
    rw [this] at h ⊢
    rw [BitVec.toInt_eq_toNat_cond] at h ⊢
    have := n.toBitVec.isLt
    split at h <;> split <;> omega
  · cases bs with
    | nil =>
      constructor
      · intro h; rw [Prog.run, de] at h; cases h
      · intro h; rw [Prog.run, de] at h; cases h
    | cons b bs =>
      have h1 : Prog.run t (de t .i8) (b :: bs) = .ok (.i8 b.toInt8, bs) := by
        rw [Prog.run, de]
        refine exec_wrap t .eof deI8 Val.i8 _ (b :: bs) bs ?_
        exact exec_wrap t .eof deU8 UInt8.toInt8 b (b :: bs) bs (deU8_wire t .eof b _)
      have h2 : Prog.run t (de t .u8) (b :: bs) = .ok (.u8 b, bs) := by
        rw [Prog.run, de]
        exact exec_wrap t .eof deU8 Val.u8 b (b :: bs) bs (deU8_wire t .eof b _)
      rw [h1, h2]
      simp only [Outcome.ok.injEq, Prod.mk.injEq, Val.i8.injEq, Val.u8.injEq]
      refine and_congr_left fun _ => ⟨fun h => ?_, fun h => ?_⟩
      · rw [← h]; rfl
      · rw [h]; rfl

/-- The number 136 as a `u8` swallows the byte that follows when read as a `u16`, and
200 fails if nothing follows; the number 300 as a `u32` leaves one behind when read as a `u8`; 3 as an `i8` is read as
the `i16` -2. -/
example : Prog.run ⟨.w64, 4096⟩ (de ⟨.w64, 4096⟩ .u16) ((Ser.toVec (.u8 0x88)).1 ++ [1, 2])
      = .ok (.u16 72, [2]) ∧
    Prog.run ⟨.w64, 4096⟩ (de ⟨.w64, 4096⟩ .u16) (Ser.toVec (.u8 200)).1 = .err .read ∧
    Prog.run ⟨.w64, 4096⟩ (de ⟨.w64, 4096⟩ .u8) (Ser.toVec (.u32 300)).1 = .ok (.u8 0xac, [4]) ∧
    Prog.run ⟨.w64, 4096⟩ (de ⟨.w64, 4096⟩ .i16) (Ser.toVec (.i8 3)).1 = .ok (.i16 (-2), []) :=
  ⟨rfl, rfl, rfl, rfl⟩

/-- The number 16384 as a `u16`, read as a `u32`, is 524288; as a `u32`, read as a
`u16`, it is 512. The number -8193 as an `i16`, read as an `i32`, is 262160. -/
example : Prog.run ⟨.w64, 4096⟩ (de ⟨.w64, 4096⟩ .u32) (Ser.toVec (.u16 16384)).1
      = .ok (.u32 524288, []) ∧
    Prog.run ⟨.w64, 4096⟩ (de ⟨.w64, 4096⟩ .u16) (Ser.toVec (.u32 16384)).1
      = .ok (.u16 512, []) ∧
    Prog.run ⟨.w64, 4096⟩ (de ⟨.w64, 4096⟩ .i32) (Ser.toVec (.i16 (-8193))).1
      = .ok (.i32 262160, []) := ⟨rfl, rfl, rfl⟩

/-! ## C90 changes that keep all data readable -/

/-- The same data are written as the same bytes. -/
theorem C90_bytes (v w : Val) (h : Same v w) (hv : Serializable v) (fv : Fits v)
    (hw : Serializable w) (fw : Fits w) : Ser.toVec v = Ser.toVec w := by
  rw [Ser.toVec, Ser.toVec, Ser.exec_ser v hv fv, Ser.exec_ser w hw fw, h.wire]

/-- Data written with one type and read with another are the same data, provided
they can be expressed in the other type. -/
theorem C90_read (t : Target) (hm : 4096 ≤ t.memLimit) (old new : Ty) (ho : Supported old)
    (hn : Supported new) (v w : Val) (hv : Has t old v) (hw : Has t new w) (h : Same v w)
    (more : List UInt8) :
    Prog.run t (de t new) ((Ser.toVec v).1 ++ more) = .ok (w, more) := by
  obtain ⟨h1, h2⟩ := has_ok t old ho v hv
  rw [Ser.toVec, Ser.exec_ser v h1 h2, h.wire]
  exact de_wire t hm new hn w hw _ more

/-- After a compatible change of a type everything written before is read as the
same data. -/
theorem C90_becomes (t : Target) (hm : 4096 ≤ t.memLimit) (old new : Ty) (ho : Supported old)
    (hn : Supported new) (h : Becomes old new) (v : Val) (hv : Has t old v) (more : List UInt8) :
    ∃ w, Has t new w ∧ Same v w ∧
      Prog.run t (de t new) ((Ser.toVec v).1 ++ more) = .ok (w, more) := by
  obtain ⟨w, hw, hs⟩ := h.has t v hv
  exact ⟨w, hw, hs, C90_read t hm old new ho hn v w hv hw hs more⟩

/-- Fields may be renamed: they are read by position. -/
theorem C90_rename (t : Target) (hm : 4096 ≤ t.memLimit) (name name' : String)
    (fts gts : List (String × Ty)) (hf : FieldsSupported fts) (hg : FieldsSupported gts)
    (h : fts.map (·.2) = gts.map (·.2)) (fs : List (String × Val))
    (hv : Has t (.struct name fts) (.struct name fs)) (more : List UInt8) :
    Prog.run t (de t (.struct name' gts)) ((Ser.toVec (.struct name fs)).1 ++ more)
      = .ok (.struct name' ((gts.map (·.1)).zip (fs.map (·.2))), more) := by
  refine C90_read t hm (.struct name fts) (.struct name' gts) hf hg _ _ hv ?_ ?_ more
  · obtain ⟨fs', he, hv⟩ := hv
    obtain ⟨-, rfl⟩ := (Val.struct.injEq ..).mp he
    have ha := hasFields_tuple t fts fs hv
    rw [h] at ha
    obtain ⟨gs, h1, h2⟩ := hasFields_of_tuple t gts _ ha
    refine ⟨_, rfl, ?_⟩
    rwa [← h2, ← hasFields_names t gts gs h1, zip_map_fst_snd]
  · obtain ⟨fs', he, hv⟩ := hv
    obtain ⟨-, rfl⟩ := (Val.struct.injEq ..).mp he
    have ha := hasAll_length t _ _ (hasFields_tuple t fts fs hv)
    refine (Same.struct name fs).trans ?_
    have := (Same.struct name' ((gts.map (·.1)).zip (fs.map (·.2)))).symm
    rwa [List.map_snd_zip (by
      rw [ha, h]; simp)] at this

/-- Variants may be added at the end: old values are read as what they were. -/
theorem C90_append (t : Target) (hm : 4096 ≤ t.memLimit) (name : String)
    (vs add : List (String × VTy)) (ho : Supported (.enum name vs))
    (hn : Supported (.enum name (vs ++ add))) (v : Val) (hv : Has t (.enum name vs) v)
    (more : List UInt8) :
    Prog.run t (de t (.enum name (vs ++ add))) ((Ser.toVec v).1 ++ more) = .ok (v, more) := by
  refine C90_read t hm _ _ ho hn v v hv ?_ (.refl v) more
  rw [Has, hasVariant_iff] at hv ⊢
  obtain ⟨i, p, h1, h2⟩ := hv
  exact ⟨i, p, by rw [List.getElem?_append_left (List.getElem?_eq_some_iff.mp h1).1]; exact h1, h2⟩

/-- `struct User(u32)` → `struct User { id: u32 }`, inside a `Vec` inside a tuple. -/
example : Becomes (.tuple [.string, .seq (.newtypeStruct "User" .u32)])
    (.tuple [.string, .seq (.struct "User" [("id", .u32)])]) :=
  .tupleAt [.string] [] (.seq (.trans (.unwrap "User" .u32)
    (.trans (.single .u32) (.tuple_struct "User" [("id", .u32)]))))

/-- `enum Shape { Dot, Circle(f64) }` → `enum Shape { Dot, Round { r: f64 }, Line }`. -/
example : Becomes (.enum "Shape" [("Dot", .unit), ("Circle", .newtype .f64)])
    (.enum "Shape" [("Dot", .unit), ("Round", .struct [("r", .f64)]), ("Line", .unit)]) :=
  .trans (.payload_tuple "Shape" [("Dot", .unit)] [] "Circle" _ _ (.newtype .f64))
    (.trans (.variantAt "Shape" [("Dot", .unit)] [] "Circle" "Round" [.f64] [.f64] (.refl _))
      (.trans (.tuple_payload "Shape" [("Dot", .unit)] [] "Round" _ _ (.struct [("r", .f64)]))
        (.append "Shape" _ [("Line", .unit)])))

/-! ## C91 changes that do not -/

/-- Fields added at the end, read by a reader that does not know them: the known
fields are read, the bytes of the others are left to be taken for what follows. -/
theorem C91_ignored (t : Target) (hm : 4096 ≤ t.memLimit) (name : String)
    (fts add : List (String × Ty)) (hf : FieldsSupported (fts ++ add))
    (fs xs : List (String × Val)) (hv : Has t (.struct name fts) (.struct name fs))
    (hx : Has t (.struct name add) (.struct name xs)) (more : List UInt8) :
    Prog.run t (de t (.struct name fts)) ((Ser.toVec (.struct name (fs ++ xs))).1 ++ more)
      = .ok (.struct name fs, (Ser.toVec (.struct name xs)).1 ++ more) := by
  obtain ⟨s1, s2⟩ := fieldsSupported_append fts add hf
  obtain ⟨a1, a2⟩ := has_ok t _ (show Supported (.struct name fts) from s1) _ hv
  obtain ⟨b1, b2⟩ := has_ok t _ (show Supported (.struct name add) from s2) _ hx
  obtain ⟨c1, c2⟩ := fields_ok_append fs xs a1 a2 b1 b2
  rw [Ser.toVec, Ser.exec_ser _ (show Serializable (.struct name (fs ++ xs)) from c1)
    (show Fits (.struct name (fs ++ xs)) from c2), Ser.toVec, Ser.exec_ser _ b1 b2]
  simp only [wire, wireFields_eq, List.map_append, wireAll_append, List.append_assoc]
  have := de_wire t hm (.struct name fts) s1 _ hv .eof (wireAll (xs.map (·.2)) ++ more)
  rwa [wire, wireFields_eq] at this

/-- Fields added at the end, missing from the data: they are read from whatever
follows, so that the result is that of reading the new fields there. -/
theorem C91_missing (t : Target) (hm : 4096 ≤ t.memLimit) (name : String)
    (fts add : List (String × Ty)) (hf : FieldsSupported fts)
    (fs : List (String × Val)) (hv : Has t (.struct name fts) (.struct name fs)) (more : List UInt8) :
    Prog.run t (de t (.struct name (fts ++ add))) ((Ser.toVec (.struct name fs)).1 ++ more)
      = match Prog.run t (de t (.struct name add)) more with
        | .ok (.struct _ xs, r) => .ok (.struct name (fs ++ xs), r)
        | other => other := by
  obtain ⟨a1, a2⟩ := has_ok t _ (show Supported (.struct name fts) from hf) _ hv
  have hd := de_wire t hm (.struct name fts) hf _ hv .eof more
  rw [de, Prog.bind_eq, Prog.exec_bind] at hd
  rw [Ser.toVec, Ser.exec_ser _ a1 a2, Prog.run, Prog.run, de, de, deFields_append, Prog.bind_eq,
    Prog.bind_eq, Prog.exec_bind, Prog.exec_bind, Prog.exec_bind]
  cases h1 : Prog.exec t .eof (deFields t fts) (wire (.struct name fs) ++ more) with
  | err e => rw [h1] at hd; cases hd
  | panic p => rw [h1] at hd; cases hd
  | ok vr =>
    obtain ⟨fs', r⟩ := vr
    rw [h1, Prog.next_ok] at hd
    obtain ⟨h2, h3⟩ := (Prod.mk.injEq ..).mp ((Outcome.ok.injEq ..).mp hd)
    obtain ⟨-, rfl⟩ := (Val.struct.injEq ..).mp h2
    subst h3
    rw [Prog.next_ok, Prog.exec_bind]
    cases Prog.exec t .eof (deFields t add) r with
    | ok vr => obtain ⟨xs, r'⟩ := vr; rfl
    | err e => rfl
    | panic p => rfl

/-- A variant unknown to the reader is reported as an error, whatever its
payload; it is never taken for another. -/
theorem C91_unknown (t : Target) (name : String) (vs : List (String × VTy)) (v : Val) (i : UInt32)
    (hi : indexOf v = some i) (h1 : vs.length ≤ i.toNat) (h2 : i.toNat < 16384)
    (hs : Serializable v) (hf : Fits v) (more : List UInt8) :
    Prog.run t (de t (.enum name vs)) ((Ser.toVec v).1 ++ more)
      = .err (unknownVariant i.toNat vs.length) := by
  have hw : ∃ w, (Ser.toVec v).1 = varint 32 i.toNat ++ w := by
    rw [Ser.toVec, Ser.exec_ser v hs hf]
    cases v <;> simp [indexOf] at hi <;> subst hi <;> simp [wire]
  obtain ⟨w, hw⟩ := hw
  have h16 : (UInt16.ofNat i.toNat).toNat = i.toNat := by
    rw [UInt16.toNat_ofNat', Nat.mod_eq_of_lt (by omega)]
  rw [hw, List.append_assoc, de, Prog.run, Prog.bind_eq, Prog.exec_bind, varint_32_16 _ h2,
    exec_u16_varint t _ _ (by omega), Prog.next_ok, deVariant_none, h16,
    show i.toNat - (i.toNat - vs.length) = vs.length by omega]
  · rfl
  · rw [h16]; exact h1

/-- Variants are read by position: a value is read as the variant that is now where
it was, whatever that is, by reading the payload of that variant from the bytes of
the payload written and what follows them. -/
theorem C91_position (t : Target) (name : String) (ws : List (String × VTy)) (v : Val) (i : UInt32)
    (wn : String) (p : VTy) (hi : indexOf v = some i) (h2 : i.toNat < 16384)
    (hw : ws[i.toNat]? = some (wn, p)) (hs : Serializable v) (hf : Fits v) (more : List UInt8) :
    Prog.run t (de t (.enum name ws)) ((Ser.toVec v).1 ++ more)
      = match Prog.run t (de t (payloadTy p)) ((Ser.toVec (payloadOf v)).1 ++ more) with
        | .ok (x, r) => .ok (withPayload name i wn p x, r)
        | .err e => .err e
        | .panic q => .panic q := by
  have hb : (Ser.toVec v).1 = varint 32 i.toNat ++ (Ser.toVec (payloadOf v)).1 := by
    rw [Ser.toVec, Ser.toVec, Ser.exec_ser v hs hf]
    cases v <;> simp [indexOf] at hi <;> subst hi <;>
      rw [payloadOf, Ser.exec_ser _ (by first | exact hs | trivial) (by first | exact hf | trivial)] <;>
      simp [wire]
  have hv : ∀ (ws : List (String × VTy)) (j : Nat) (k : UInt16), ws[j]? = some (wn, p) →
      deVariant t name k j ws = dePayload t name k.toUInt32 wn p := by
    intro ws
    induction ws with
    | nil => intro j k h; simp at h
    | cons w ws ih =>
      intro j k h
      cases j with
      | zero =>
        obtain ⟨a, b⟩ := w
        simp only [List.getElem?_cons_zero, Option.some.injEq, Prod.mk.injEq] at h
        rw [deVariant, h.1, h.2]
      | succ j => rw [deVariant]; exact ih j k (by simpa using h)
  have hk : (UInt16.ofNat i.toNat).toUInt32 = i := by
    rw [← UInt32.toNat_inj, UInt16.toNat_toUInt32, UInt16.toNat_ofNat', Nat.mod_eq_of_lt (by omega)]
  rw [hb, List.append_assoc, de, Prog.run, Prog.bind_eq, Prog.exec_bind, varint_32_16 _ h2,
    exec_u16_varint t _ _ (by omega), Prog.next_ok, hv ws _ _ (by
      rw [UInt16.toNat_ofNat', Nat.mod_eq_of_lt (by omega)]; exact hw), hk, Prog.run]
  cases p with
  | unit => rw [dePayload, payloadTy, de]; rfl
  | newtype ty =>
    rw [dePayload, payloadTy, Prog.bind_eq, Prog.exec_bind]
    cases Prog.exec t .eof (de t ty) ((Ser.toVec (payloadOf v)).1 ++ more) <;> rfl
  | tuple ts =>
    rw [dePayload, payloadTy, de, Prog.bind_eq, Prog.exec_bind, Prog.bind_eq, Prog.exec_bind]
    cases Prog.exec t .eof (deAll t ts) ((Ser.toVec (payloadOf v)).1 ++ more) <;> rfl
  | struct fts =>
    rw [dePayload, payloadTy, de, Prog.bind_eq, Prog.exec_bind, Prog.bind_eq, Prog.exec_bind]
    cases Prog.exec t .eof (deFields t fts) ((Ser.toVec (payloadOf v)).1 ++ more) <;> rfl

/-- In particular, if the variant now in that position has the same payload type, a
value is silently read as that variant with the same payload. -/
theorem C91_reordered (t : Target) (hm : 4096 ≤ t.memLimit) (name : String)
    (vs ws : List (String × VTy)) (ho : Supported (.enum name vs)) (v : Val)
    (hv : Has t (.enum name vs) v) (i : UInt32) (hi : indexOf v = some i) (vn wn : String) (p : VTy)
    (hp : vs[i.toNat]? = some (vn, p)) (hw : ws[i.toNat]? = some (wn, p)) (more : List UInt8) :
    Prog.run t (de t (.enum name ws)) ((Ser.toVec v).1 ++ more)
      = .ok (withPayload name i wn p (payloadOf v), more) := by
  obtain ⟨h1, h2⟩ := has_ok t _ ho v hv
  have hl : i.toNat < 16384 := Nat.lt_of_lt_of_le (List.getElem?_eq_some_iff.mp hp).1 ho.1
  have hx := C91_position t name vs v i vn p hi hl hp h1 h2 more
  have hr : Prog.run t (de t (.enum name vs)) ((Ser.toVec v).1 ++ more) = .ok (v, more) := by
    rw [Ser.toVec, Ser.exec_ser v h1 h2]
    exact de_wire t hm _ ho v hv _ more
  rw [C91_position t name ws v i wn p hi hl hw h1 h2 more]
  rw [hr] at hx
  have hw : ∀ x, withPayload name i wn p (payloadOf (withPayload name i vn p x)) =
      withPayload name i wn p x := by
    intro x
    cases p <;> cases x <;> rfl
  cases hq : Prog.run t (de t (payloadTy p)) ((Ser.toVec (payloadOf v)).1 ++ more) with
  | err e => rw [hq] at hx; cases hx
  | panic q => rw [hq] at hx; cases hx
  | ok a =>
    obtain ⟨x, r⟩ := a
    rw [hq] at hx
    obtain ⟨h3, h4⟩ := (Prod.mk.injEq ..).mp ((Outcome.ok.injEq ..).mp hx)
    subst h4
    rw [h3, hw]

/-- `enum E { A, B(u8), C(u8) }` with `B` and `C` exchanged. -/
example (t : Target) (hm : 4096 ≤ t.memLimit) (more : List UInt8) :
    Prog.run t (de t (.enum "E" [("A", .unit), ("C", .newtype .u8), ("B", .newtype .u8)]))
      ((Ser.toVec (.newtypeVariant "E" 1 "B" (.u8 7))).1 ++ more)
      = .ok (.newtypeVariant "E" 1 "C" (.u8 7), more) :=
  C91_reordered t hm "E" [("A", .unit), ("B", .newtype .u8), ("C", .newtype .u8)] _
    ⟨by decide, trivial, trivial, trivial, trivial⟩ _ (.inr (.inl ⟨_, rfl, _, rfl⟩)) 1 rfl "B" "C"
    (.newtype .u8) rfl rfl more

/-- Data without a new last field, be it an `Option`, are not readable on their
own, and in a stream take the field from the next record. -/
example : Prog.run ⟨.w64, 4096⟩ (de ⟨.w64, 4096⟩ (.struct "S" [("a", .u8), ("b", .option .u8)]))
      (Ser.toVec (.struct "S" [("a", .u8 7)])).1 = .err .read ∧
    Prog.run ⟨.w64, 4096⟩ (de ⟨.w64, 4096⟩ (.struct "S" [("a", .u8), ("b", .option .u8)]))
      ((Ser.toVec (.struct "S" [("a", .u8 7)])).1 ++ (Ser.toVec (.struct "S" [("a", .u8 0)])).1)
      = .ok (.struct "S" [("a", .u8 7), ("b", .none)], []) := ⟨rfl, rfl⟩

example (t : Target) (more : List UInt8) : Prog.run t
    (de t (.enum "E" [("A", .unit), ("B", .newtype .u8)]))
    ((Ser.toVec (.newtypeVariant "E" 2 "C" (.str "new"))).1 ++ more) =
      .err (.message "invalid value: integer `2`, expected variant index 0 <= i < 2") :=
  C91_unknown t "E" _ _ 2 rfl (by decide) (by decide) (by simp [Serializable])
    (by simp only [Fits]; decide) more

end Dlhn.Props
