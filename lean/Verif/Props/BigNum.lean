import Verif.Proof.BigNum
import Verif.Proof.ProgGen
/-!
# C43-C48, C65: big numbers

`(BigUint.ofNum n).ser.exec` is what serializing `BigUint::from(n)` into a
`Vec<u8>` writes and returns; `Prog.run t (BigUint.de t) bs` is deserializing a
`BigUint` from the slice `bs`. `Format.serBigUint`/`Format.deBigUint` are the
functions of `format::big_uint` used with `#[serde(with = ..)]`. `mode` says
whether the build has overflow checks.
-/
namespace Dlhn.Props

open Spec Num

/-! ## C43 unsigned -/

/-- Converting to `BigUint` and back is the identity. -/
theorem C43_convert (n : Nat) : (BigUint.ofNum n).toNum = n := by
  rw [BigUint.ofNum_eq, BigUint.toNum, fromBytesLe_eq, leValue_digits]

/-- The stored bytes are the shortest little-endian bytes of the number. -/
theorem C43_shortest (n : Nat) : ShortestUnsigned n (BigUint.ofNum n).bytes := by
  rw [BigUint.ofNum_eq]
  exact shortest_digits n

/-- Only zero is stored without bytes. -/
theorem C43_zero (n : Nat) : (BigUint.ofNum n).bytes = [] ↔ n = 0 := by
  rw [BigUint.ofNum_eq]
  constructor
  · intro h
    apply Decidable.byContradiction
    exact fun h0 => digits_ne_nil h0 h
  · rintro rfl
    show digits 0 = []
    rw [digits]; rfl

/-- Converting any stored bytes back gives their little-endian value. -/
theorem C43_value (b : BigUint) : b.toNum = leValue b.bytes := fromBytesLe_eq _

/-- Serialize, deserialize and convert back: nothing changes, and the decoder
stops exactly behind the number. -/
theorem C43_roundtrip (t : Target) (n : Nat) (h : (BigUint.ofNum n).bytes.length < 2 ^ t.ptr.bits) :
    ∃ enc, (BigUint.ofNum n).ser.exec = (enc, .ok ()) ∧
      (∀ rest, Prog.run t (BigUint.de t) (enc ++ rest) = .ok (BigUint.ofNum n, rest)) ∧
      (BigUint.ofNum n).toNum = n :=
  ⟨_, BigUint.exec_ser _ (De.lt_64_of_lt_bits h), fun rest => BigUint.exec_de t _ _ h rest,
    C43_convert n⟩

/-- The same for `format::big_uint`. -/
theorem C43_format (t : Target) (n : Nat) (h : (BigUint.ofNum n).bytes.length < 2 ^ t.ptr.bits) :
    ∃ enc, (Format.serBigUint n).exec = (enc, .ok ()) ∧
      ∀ rest, Prog.run t (Format.deBigUint t) (enc ++ rest) = .ok (n, rest) := by
  refine ⟨block (digits n), ?_, fun rest => ?_⟩
  · rw [BigUint.ofNum_eq] at h
    have h64 := De.lt_64_of_lt_bits h
    rw [Format.serBigUint, WProg.exec_andThen_ok (Ser.exec_serHint none (by simp))]
    split
    · subst n
      rw [← Ser.serVecU8_nil, Ser.exec_serVecU8 _ (by simp), digits]
      rfl
    · rw [toBytesLe_of_ne ‹_›, Ser.exec_serVecU8 _ h64]
      rfl
  · rw [BigUint.ofNum_eq] at h
    have := De.exec_wrap t .eof _ fromBytesLe _ _ _ (De.deVecU8_block t .eof (digits n) rest h)
    rw [fromBytesLe_eq, leValue_digits] at this
    exact this

/-- 70000 is stored as three bytes, which is the shortest. -/
example : (BigUint.ofNum 70000).bytes = [112, 17, 1] := by decide +kernel
example : (BigUint.ofNum 0).bytes = [] := by decide +kernel
/-- The hypotheses are met. -/
example : (BigUint.ofNum 70000).bytes.length < 2 ^ (Target.mk .w64 4096).ptr.bits := by
  decide +kernel

/-! ## C44 signed -/

/-- Converting to `BigInt` and back is the identity. -/
theorem C44_convert (x : Int) : (BigInt.ofNum x).toNum = x := by
  rw [BigInt.ofNum, BigInt.toNum]
  split
  · subst x; rfl
  · rw [fromSignedBytesLe_eq, (shortest_signed ‹_›).1]

/-- The stored bytes are the shortest little-endian two's-complement bytes. -/
theorem C44_shortest (x : Int) : ShortestSigned x (BigInt.ofNum x).bytes := by
  rw [BigInt.ofNum]
  split
  · subst x
    exact ⟨rfl, fun _ _ => Nat.zero_le _⟩
  · exact shortest_signed ‹_›

/-- Only zero is stored without bytes. -/
theorem C44_zero (x : Int) : (BigInt.ofNum x).bytes = [] ↔ x = 0 := by
  constructor
  · intro h
    have := (C44_shortest x).1
    rw [h] at this
    exact this.symm
  · rintro rfl; rfl

/-- Converting any stored bytes back gives their two's-complement value. -/
theorem C44_value (b : BigInt) : b.toNum = signedValue b.bytes := fromSignedBytesLe_eq _

/-- Serialize, deserialize and convert back. -/
theorem C44_roundtrip (t : Target) (x : Int) (h : (BigInt.ofNum x).bytes.length < 2 ^ t.ptr.bits) :
    ∃ enc, (BigInt.ofNum x).ser.exec = (enc, .ok ()) ∧
      (∀ rest, Prog.run t (BigInt.de t) (enc ++ rest) = .ok (BigInt.ofNum x, rest)) ∧
      (BigInt.ofNum x).toNum = x :=
  ⟨_, BigInt.exec_ser _ (De.lt_64_of_lt_bits h), fun rest => BigInt.exec_de t _ _ h rest,
    C44_convert x⟩

/-- The same for `format::big_int`. -/
theorem C44_format (t : Target) (x : Int) (h : (BigInt.ofNum x).bytes.length < 2 ^ t.ptr.bits) :
    ∃ enc, (Format.serBigInt x).exec = (enc, .ok ()) ∧
      ∀ rest, Prog.run t (Format.deBigInt t) (enc ++ rest) = .ok (x, rest) := by
  refine ⟨block (BigInt.ofNum x).bytes, ?_, fun rest => ?_⟩
  · have h64 := De.lt_64_of_lt_bits h
    rw [Format.serBigInt, WProg.exec_andThen_ok (Ser.exec_serHint none (by simp))]
    rw [BigInt.ofNum] at h64 ⊢
    split
    · rw [← Ser.serVecU8_nil, Ser.exec_serVecU8 _ (by simp)]
      rfl
    · rw [if_neg ‹_›] at h64
      rw [Ser.exec_serVecU8 _ h64]
      rfl
  · have := De.exec_wrap t .eof _ fromSignedBytesLe _ _ _ (De.deVecU8_block t .eof _ rest h)
    rw [show fromSignedBytesLe (BigInt.ofNum x).bytes = x from C44_convert x] at this
    exact this

/-- -128 needs one byte, 128 two, -32768 two. -/
example : (BigInt.ofNum (-128)).bytes = [128] := by decide +kernel
example : (BigInt.ofNum 128).bytes = [128, 0] := by decide +kernel
example : (BigInt.ofNum (-32768)).bytes = [0, 128] := by decide +kernel
example : (BigInt.ofNum (-70000)).bytes.length < 2 ^ (Target.mk .w32 4096).ptr.bits := by
  decide +kernel

/-! ## C45 decimals -/

/-- Sample decimal 1.500, whose normal form is 1.5. -/
def sampleDecimal : Decimal := ⟨1500, 3⟩

theorem sampleDecimal_fits : ScaleFits sampleDecimal := by
  intro _ k hk
  have h1 : (10 ^ k : Nat) ∣ 1500 := by
    have := Int.natAbs_dvd_natAbs.mpr hk
    rwa [Int.natAbs_pow] at this
  have h2 := Nat.le_of_dvd (by decide) h1
  have h3 : k < 4 := by
    apply Decidable.byContradiction
    intro hc
    have := Nat.pow_le_pow_right (show 0 < 10 by decide) (show 4 ≤ k by omega)
    omega
  have h4 : sampleDecimal.scale.toInt = 3 := by decide
  omega

/-- The conversion succeeds in every build and keeps the number. -/
theorem C45_value (mode : BuildMode) (v : Decimal) (hf : ScaleFits v) :
    ∃ b, BigDecimal.ofNum mode v = .ok b ∧ SameNumber b.toNum v := by
  rcases BigDecimal.ofNum_spec mode v hf with ⟨hz, h⟩ | ⟨-, n, -, -, hs, -, h, hn⟩
  · exact ⟨_, h, same_of_zero rfl hz⟩
  · refine ⟨_, h, ?_⟩
    rw [hn]; exact hs

/-- Equal numbers, and only equal numbers, give equal `BigDecimal`s, in every
combination of builds. -/
theorem C45_canonical (mode mode' : BuildMode) (v w : Decimal) (hv : ScaleFits v)
    (hw : ScaleFits w) : BigDecimal.ofNum mode v = BigDecimal.ofNum mode' w ↔ SameNumber v w := by
  constructor
  · intro h
    obtain ⟨b, hb, hs⟩ := C45_value mode v hv
    obtain ⟨c, hc, hs'⟩ := C45_value mode' w hw
    rw [hb, hc] at h
    cases h
    exact same_trans (same_symm hs) hs'
  · intro h
    have hz := same_zero h
    rcases BigDecimal.ofNum_spec mode v hv with ⟨hz1, h1⟩ | ⟨hz1, n, -, hm, hs, -, h1, -⟩ <;>
      rcases BigDecimal.ofNum_spec mode' w hw with ⟨hz2, h2⟩ | ⟨hz2, n', -, hm', hs', -, h2, -⟩
    · rw [h1, h2]
    · exact absurd (hz.mp hz1) hz2
    · exact absurd (hz.mpr hz2) hz1
    · have : n = n' := same_unique hm hm' (same_trans hs (same_trans h (same_symm hs')))
      subst this
      rw [h1, h2]

/-- The stored digits never end in a decimal zero, and are the shortest
two's-complement bytes of their value. -/
theorem C45_normal_form (mode : BuildMode) (v : Decimal) (hf : ScaleFits v) (b : BigDecimal)
    (h : BigDecimal.ofNum mode v = .ok b) :
    (v.intVal ≠ 0 → ¬ (10 : Int) ∣ b.toNum.intVal) ∧
      ShortestSigned b.toNum.intVal b.signedBytes := by
  rcases BigDecimal.ofNum_spec mode v hf with ⟨hz, h1⟩ | ⟨-, n, -, hm, -, -, h1, hn⟩
  · rw [h1] at h
    cases h
    exact ⟨fun h => absurd hz h, rfl, fun _ _ => Nat.zero_le _⟩
  · rw [h1] at h
    cases h
    rw [hn]
    refine ⟨fun _ hd => ?_, shortest_signed (ne_zero_of_mod hm)⟩
    have := Int.natAbs_dvd_natAbs.mpr hd
    exact hm (Nat.mod_eq_zero_of_dvd this)

/-- Converting back and forth again changes nothing. -/
theorem C45_idempotent (mode mode' : BuildMode) (v : Decimal) (hf : ScaleFits v) (b : BigDecimal)
    (h : BigDecimal.ofNum mode v = .ok b) : BigDecimal.ofNum mode' b.toNum = .ok b := by
  rcases BigDecimal.ofNum_spec mode v hf with ⟨hz, h1⟩ | ⟨-, n, -, hm, -, -, h1, hn⟩
  · rw [h1] at h
    cases h
    rfl
  · have hf' : ScaleFits n := by
      intro hz k hk
      cases k with
      | zero => exact ⟨by decide, by have := Int64.le_toInt n.scale; omega⟩
      | succ k =>
        exfalso
        have h10 : (10 : Int) ∣ n.intVal := by
          rw [Int.pow_succ] at hk
          exact Int.dvd_trans (Int.dvd_mul_left _ _) hk
        exact hm (Nat.mod_eq_zero_of_dvd (Int.natAbs_dvd_natAbs.mpr h10))
    rw [h1] at h
    cases h
    rw [hn, ← h1]
    refine (C45_canonical mode' mode n v hf' hf).mpr ?_
    obtain ⟨c, hc, hs⟩ := C45_value mode v hf
    rw [h1] at hc
    cases hc
    rw [hn] at hs
    exact hs

/-- Serialize and deserialize: nothing changes. -/
theorem C45_roundtrip (t : Target) (mode : BuildMode) (v : Decimal) (b : BigDecimal)
    (h : BigDecimal.ofNum mode v = .ok b) (hl : b.signedBytes.length < 2 ^ t.ptr.bits) :
    ∃ enc, b.ser.exec = (enc, .ok ()) ∧
      ∀ rest, Prog.run t (BigDecimal.de t) (enc ++ rest) = .ok (b, rest) := by
  refine ⟨_, BigDecimal.exec_ser b (De.lt_64_of_lt_bits hl), fun rest =>
    BigDecimal.exec_de t _ b hl (fun h0 => ?_) rest⟩
  rw [BigDecimal.ofNum] at h
  split at h
  · cases h; rfl
  · rename_i hz
    split at h
    · cases h
    · rename_i n hn
      cases h
      have hn0 : n.intVal ≠ 0 := by
        have hs := stripZeros_spec (n := v.intVal.natAbs) (by omega)
        simp only [Decimal.normalized, if_neg hz] at hn
        split at hn
        · cases hn
        · cases hn
          intro hc
          rcases Int.mul_eq_zero.mp hc with h1 | h1
          · exact hz (Int.sign_eq_zero_iff_zero.mp h1)
          · rw [Int.natCast_eq_zero.mp h1] at hs
            exact hs.2 rfl
      have := (shortest_signed hn0).1
      have h0' : toSignedBytesLe n.intVal = [] := h0
      rw [h0'] at this
      exact absurd this.symm hn0

/-- `format::big_decimal`: what is read back denotes the number written. -/
theorem C45_format (t : Target) (mode : BuildMode) (v : Decimal) (hf : ScaleFits v)
    (hl : ∀ b, BigDecimal.ofNum mode v = .ok b → b.signedBytes.length < 2 ^ t.ptr.bits) :
    ∃ enc w, (Format.serBigDecimal mode v).exec = (enc, .ok ()) ∧ SameNumber w v ∧
      ∀ rest, Prog.run t (Format.deBigDecimal t) (enc ++ rest) = .ok (w, rest) := by
  rcases BigDecimal.ofNum_spec mode v hf with ⟨hz, h1⟩ | ⟨hz, n, hn, hm, hs, -, h1, hb⟩
  · refine ⟨[0], ⟨0, 0⟩, ?_, same_of_zero rfl hz, fun rest => ?_⟩
    · rw [Format.serBigDecimal, WProg.exec_andThen_ok (Ser.exec_serHint none (by simp)), if_pos hz]
      rfl
    · have hlen : ([] : List UInt8).length < 2 ^ t.ptr.bits := Nat.two_pow_pos _
      rw [Format.deBigDecimal, Prog.bind_eq, Prog.run, Prog.exec_bind, ← block_nil,
        De.deVecU8_block t .eof [] rest hlen, Prog.next_ok]
      rfl
  · have hl1 := hl _ h1
    have hn0 := ne_zero_of_mod hm
    have hv : fromSignedBytesLe (toSignedBytesLe n.intVal) = n.intVal := by
      rw [fromSignedBytesLe_eq, (shortest_signed hn0).1]
    refine ⟨block (toSignedBytesLe n.intVal) ++ varint 64 (zigzag n.scale.toInt), n, ?_, hs,
      fun rest => ?_⟩
    · rw [Format.serBigDecimal, WProg.exec_andThen_ok (Ser.exec_serHint none (by simp)), if_neg hz,
        hn]
      show (([] : List UInt8) ++ _, _) = _
      rw [WProg.exec_andThen_ok (Ser.exec_serVecU8 _ (De.lt_64_of_lt_bits hl1)), Ser.exec_serI64]
      rfl
    · rw [Format.deBigDecimal, Prog.bind_eq, Prog.run, Prog.exec_bind, List.append_assoc,
        De.deVecU8_block t .eof _ _ hl1, Prog.next_ok]
      simp only [hv, if_neg hn0]
      exact De.exec_wrap t .eof _ (Decimal.mk n.intVal) _ _ _ (De.deI64_wire t .eof n.scale rest)

/-- The conversion overflows exactly when the normalised scale does not fit:
with overflow checks it then panics, without them the scale wraps. The number
of decimal digits is assumed below 2^63. -/
theorem C45_overflow (v : Decimal) (hz : v.intVal ≠ 0)
    (hk : ∀ k : Nat, (10 ^ k : Int) ∣ v.intVal → k < 2 ^ 63) :
    (BigDecimal.ofNum .debug v = .panic .overflow ↔ ¬ ScaleFits v) ∧
      ∃ b, BigDecimal.ofNum .release v = .ok b := by
  constructor
  · constructor
    · intro h hf
      obtain ⟨b, hb, -⟩ := C45_value .debug v hf
      rw [hb] at h
      cases h
    · intro hf
      have h63 := hk _ (dvd_of_strip hz)
      have hs := stripZeros_spec (n := v.intVal.natAbs) (by omega)
      have hov : v.scale.toInt - (stripZeros v.intVal.natAbs).2 < -2 ^ 63 := by
        apply Decidable.byContradiction
        intro hc
        apply hf
        intro _ k hd
        refine ⟨hk k hd, ?_⟩
        have hle : k ≤ (stripZeros v.intVal.natAbs).2 := by
          obtain ⟨q, hq⟩ : 10 ^ k ∣ v.intVal.natAbs := by
            have := Int.natAbs_dvd_natAbs.mpr hd
            rwa [Int.natAbs_pow] at this
          have hq0 : q ≠ 0 := by
            rintro rfl
            rw [Nat.mul_zero] at hq
            omega
          have hq' := stripZeros_spec (n := q) hq0
          have := mul_pow_inj hs.2 hq'.2 (p := (stripZeros v.intVal.natAbs).2)
            (q := (stripZeros q).2 + k) (by
              rw [hs.1, hq, Nat.pow_add, ← Nat.mul_assoc, hq'.1, Nat.mul_comm])
          omega
        omega
      simp only [BigDecimal.ofNum, Decimal.normalized, if_neg hz, subI64_overflow h63 hov]
  · simp only [BigDecimal.ofNum, Decimal.normalized, if_neg hz, subI64]
    exact ⟨_, rfl⟩

/-- The smallest scale with a trailing zero: a debug build panics, a release
build stores a different number. -/
theorem C45_overflow_witness :
    BigDecimal.ofNum .debug ⟨10, Int64.minValue⟩ = .panic .overflow ∧
    BigDecimal.ofNum .release ⟨10, Int64.minValue⟩ = .ok ⟨[1], Int64.maxValue⟩ ∧
    ¬ SameNumber (BigDecimal.toNum ⟨[1], Int64.maxValue⟩) ⟨10, Int64.minValue⟩ := by
  refine ⟨by decide +kernel, by decide +kernel, ?_⟩
  rintro ⟨a, b, hs, hi⟩
  have h1 : (BigDecimal.toNum ⟨[1], Int64.maxValue⟩).scale.toInt = 2 ^ 63 - 1 := by decide
  have h2 : (Decimal.mk 10 Int64.minValue).scale.toInt = -2 ^ 63 := by decide
  have h3 : (BigDecimal.toNum ⟨[1], Int64.maxValue⟩).intVal = 1 := by decide +kernel
  have h4 : (Decimal.mk 10 Int64.minValue).intVal = 10 := rfl
  rw [h1, h2] at hs
  rw [h3, h4, Int.one_mul] at hi
  have : (10 : Int) * 10 ^ b = 10 ^ (b + 1) := by rw [Int.pow_succ, Int.mul_comm]
  rw [this] at hi
  have hn := congrArg Int.natAbs hi
  rw [Int.natAbs_pow, Int.natAbs_pow] at hn
  have := (Nat.pow_right_inj (show 1 < Int.natAbs 10 by decide)).mp hn
  omega

/-- 1.500 becomes 15 with scale 1; the hypotheses are met. -/
example : BigDecimal.ofNum .debug sampleDecimal = .ok ⟨[15], 1⟩ := by decide +kernel
example : ScaleFits sampleDecimal := sampleDecimal_fits
/-- 1.500 and 1.5 denote the same number, 15 and 1.5 do not. -/
example : SameNumber sampleDecimal ⟨15, 1⟩ := ⟨0, 2, by decide, by decide⟩
example : BigDecimal.ofNum .debug ⟨15, 0⟩ ≠ BigDecimal.ofNum .debug sampleDecimal := by
  decide +kernel

/-! ## C46 format modules and newtypes -/

/-- `format::big_uint` makes the same writer calls as the newtype, so it writes
the same bytes and returns the same result on every writer. -/
theorem C46_big_uint (n : Nat) (s : WScript) :
    (Format.serBigUint n).runScript s = (BigUint.ofNum n).ser.runScript s := by
  rw [Format.serBigUint, BigUint.ser, BigUint.ofNum]
  split
  · rw [Ser.serVecU8_nil]
  · rfl

/-- `format::big_uint` reads what the newtype reads, from every reader. -/
theorem C46_big_uint_de (t : Target) (size : Nat → Nat) (s : Script) :
    Prog.runScript t size (Format.deBigUint t) s
      = (Prog.runScript t size (BigUint.de t) s).map fun (b, r) => (b.toNum, r) := by
  rw [Format.deBigUint, BigUint.de]
  exact Prog.runScript_map2 t size (De.deVecU8 t) fromBytesLe BigUint.mk BigUint.toNum
    (fun _ => rfl) s

/-- `format::big_int` makes the same writer calls as the newtype. -/
theorem C46_big_int (x : Int) (s : WScript) :
    (Format.serBigInt x).runScript s = (BigInt.ofNum x).ser.runScript s := by
  rw [Format.serBigInt, BigInt.ser, BigInt.ofNum]
  split
  · rw [Ser.serVecU8_nil]
  · rfl

/-- `format::big_int` reads what the newtype reads, from every reader. -/
theorem C46_big_int_de (t : Target) (size : Nat → Nat) (s : Script) :
    Prog.runScript t size (Format.deBigInt t) s
      = (Prog.runScript t size (BigInt.de t) s).map fun (b, r) => (b.toNum, r) := by
  rw [Format.deBigInt, BigInt.de]
  exact Prog.runScript_map2 t size (De.deVecU8 t) fromSignedBytesLe BigInt.mk BigInt.toNum
    (fun _ => rfl) s

/-- `format::big_decimal` makes the same writer calls as the newtype. -/
theorem C46_big_decimal (mode : BuildMode) (v : Decimal) (b : BigDecimal)
    (h : BigDecimal.ofNum mode v = .ok b) (s : WScript) :
    (Format.serBigDecimal mode v).runScript s = b.ser.runScript s := by
  rw [Format.serBigDecimal, BigDecimal.ser]
  rw [BigDecimal.ofNum] at h
  split at h
  · cases h
    rw [if_pos ‹_›]
    rfl
  · rename_i hz
    rw [if_neg hz]
    split at h
    · cases h
    · rename_i n hn
      cases h
      simp only
      have hne : toSignedBytesLe n.intVal ≠ [] := by
        rw [toSignedBytesLe]
        intro hc
        have h1 : toBytesLe n.intVal.natAbs ≠ [] := by
          rw [toBytesLe]
          split
          · simp
          · exact digits_ne_nil ‹_›
        have h2 : (if n.intVal < 0 then twosComplement true _ else _) = ([] : List UInt8) := hc
        split at h2
        · have := congrArg List.length h2
          rw [length_twosComplement] at this
          split at this
          · simp at this
          · exact h1 (List.length_eq_zero_iff.mp this)
        · split at h2
          · simp at h2
          · exact h1 h2
      rw [if_neg hne]

/-- When the conversion to the newtype overflows (only with overflow checks), so
does `format::big_decimal::serialize`, before writing anything. -/
theorem C46_big_decimal_overflow (mode : BuildMode) (v : Decimal) (p : PanicKind)
    (h : BigDecimal.ofNum mode v = .panic p) (s : WScript) :
    (Format.serBigDecimal mode v).runScript s = ([], .panic p) := by
  rw [BigDecimal.ofNum] at h
  split at h
  · cases h
  · rename_i hz
    split at h
    · rename_i hn
      cases h
      rw [Format.serBigDecimal, if_neg hz, hn]
      rfl
    · cases h

/-- `format::big_decimal` reads every number that either of the two wrote, and
gets what converting the newtype gives. -/
theorem C46_big_decimal_de (t : Target) (mode : BuildMode) (v : Decimal) (hf : ScaleFits v)
    (b : BigDecimal) (h : BigDecimal.ofNum mode v = .ok b)
    (hl : b.signedBytes.length < 2 ^ t.ptr.bits) :
    ∃ enc, b.ser.exec = (enc, .ok ()) ∧
      ∀ rest, Prog.run t (BigDecimal.de t) (enc ++ rest) = .ok (b, rest) ∧
        Prog.run t (Format.deBigDecimal t) (enc ++ rest) = .ok (b.toNum, rest) := by
  obtain ⟨enc, he, hd⟩ := C45_roundtrip t mode v b h hl
  refine ⟨enc, he, fun rest => ⟨hd rest, ?_⟩⟩
  have h64 := De.lt_64_of_lt_bits hl
  rw [BigDecimal.exec_ser b h64] at he
  cases he
  rcases BigDecimal.ofNum_spec mode v hf with ⟨hz, h1⟩ | ⟨hz, n, hn, hm, hs, -, h1, hb⟩
  · rw [h] at h1
    cases h1
    rw [decimalWire, if_pos rfl, Format.deBigDecimal, Prog.bind_eq, Prog.run, Prog.exec_bind,
      ← block_nil, De.deVecU8_block t .eof [] rest hl, Prog.next_ok]
    rfl
  · rw [h] at h1
    cases h1
    have hn0 := ne_zero_of_mod hm
    have hv : fromSignedBytesLe (toSignedBytesLe n.intVal) = n.intVal := by
      rw [fromSignedBytesLe_eq, (shortest_signed hn0).1]
    have hne : toSignedBytesLe n.intVal ≠ [] := by
      intro hc
      rw [hc] at hv
      exact hn0 hv.symm
    rw [decimalWire, if_neg hne, Format.deBigDecimal, Prog.bind_eq, Prog.run, Prog.exec_bind,
      List.append_assoc, De.deVecU8_block t .eof _ _ hl, Prog.next_ok]
    simp only [hv, if_neg hn0]
    rw [hb]
    exact De.exec_wrap t .eof _ (Decimal.mk n.intVal) _ _ _ (De.deI64_wire t .eof n.scale rest)

/-! ## C65 disagreement on foreign bytes -/

/-- Bytes whose digits are a non-canonical zero: the newtype reads the scale
behind them, `format::big_decimal` leaves it unread, so the rest of the stream is
read differently. -/
theorem C65_zero_digits (t : Target) (zeros : List UInt8) (hz : signedValue zeros = 0)
    (hne : zeros ≠ []) (hl : zeros.length < 2 ^ t.ptr.bits) (scale : Int64) (rest : List UInt8) :
    let bytes := block zeros ++ varint 64 (zigzag scale.toInt)
    Prog.run t (BigDecimal.de t) (bytes ++ rest) = .ok (⟨zeros, scale⟩, rest) ∧
    Prog.run t (Format.deBigDecimal t) (bytes ++ rest)
      = .ok (⟨0, 0⟩, varint 64 (zigzag scale.toInt) ++ rest) := by
  constructor
  · have := BigDecimal.exec_de t .eof ⟨zeros, scale⟩ hl (fun h => absurd h hne) rest
    rw [decimalWire, if_neg hne] at this
    exact this
  · rw [Format.deBigDecimal, Prog.bind_eq, Prog.run, Prog.exec_bind, List.append_assoc,
      De.deVecU8_block t .eof _ _ hl, Prog.next_ok]
    simp only [fromSignedBytesLe_eq, hz, if_true]
    rfl

/-- The bytes `1 0 2`. -/
example (t : Target) : Prog.run t (BigDecimal.de t) [1, 0, 2] = .ok (⟨[0], 1⟩, []) ∧
    Prog.run t (Format.deBigDecimal t) [1, 0, 2] = .ok (⟨0, 0⟩, [2]) := by
  have := C65_zero_digits t [0] (by decide) (by simp) (by cases t.ptr <;> decide) 1 []
  have e : block [0] ++ varint 64 (zigzag (1 : Int64).toInt) ++ [] = [1, 0, 2] := by decide +kernel
  have e2 : varint 64 (zigzag (1 : Int64).toInt) ++ [] = [2] := by decide +kernel
  simp only [e, e2] at this
  exact this

/-! ## C47 order -/

/-- Numbers below 256 are ordered numerically. -/
theorem C47_small (m n : Nat) (hm : m < 256) (hn : n < 256) :
    (BigUint.ofNum m).lt (BigUint.ofNum n) = decide (m < n) := by
  have hd : ∀ k, k < 256 → digits k = if k = 0 then [] else [UInt8.ofNat k] := by
    intro k hk
    rw [digits]
    split
    · rfl
    · rw [Nat.mod_eq_of_lt hk, Nat.div_eq_of_lt hk, digits]
      rfl
  rw [BigUint.ofNum_eq, BigUint.ofNum_eq, BigUint.lt]
  simp only [hd m hm, hd n hn]
  apply decide_eq_decide.mpr
  split <;> split
  · subst m; subst n; simp
  · subst m; simp; omega
  · subst n; simp
  · rw [List.cons_lt_cons_iff]
    simp only [List.not_lt_nil, and_false, or_false]
    rw [UInt8.lt_iff_toNat_lt, UInt8.toNat_ofNat', UInt8.toNat_ofNat', Nat.mod_eq_of_lt hm,
      Nat.mod_eq_of_lt hn]

/-- Beyond that the order is not numeric: 256 comes before 1; for `BigInt` 1
comes before -1; for `BigDecimal` 0.5 does not come before 2. -/
theorem C47_not_numeric :
    (BigUint.ofNum 256).lt (BigUint.ofNum 1) = true ∧
    (BigInt.ofNum 1).lt (BigInt.ofNum (-1)) = true ∧
    (BigDecimal.ofNum .debug ⟨5, 1⟩ = .ok ⟨[5], 1⟩ ∧ BigDecimal.ofNum .debug ⟨2, 0⟩ = .ok ⟨[2], 0⟩ ∧
      BigDecimal.lt ⟨[2], 0⟩ ⟨[5], 1⟩ = true) := by decide +kernel

/-- For every number with at least two bytes whose lowest byte is not 255 there
is a smaller number that compares as greater. -/
theorem C47_inversions (n : Nat) (hn : 256 ≤ n) (hl : n % 256 ≠ 255) :
    ∃ m, m < n ∧ (BigUint.ofNum n).lt (BigUint.ofNum m) = true := by
  refine ⟨n % 256 + 1, by omega, ?_⟩
  have hd : digits (n % 256 + 1) = [UInt8.ofNat (n % 256 + 1)] := by
    rw [digits, if_neg (by omega), Nat.mod_eq_of_lt (by omega), Nat.div_eq_of_lt (by omega), digits]
    rfl
  rw [BigUint.ofNum_eq, BigUint.ofNum_eq, BigUint.lt]
  simp only [hd]
  rw [digits, if_neg (by omega)]
  apply decide_eq_true
  rw [List.cons_lt_cons_iff]
  left
  rw [UInt8.lt_iff_toNat_lt, UInt8.toNat_ofNat', UInt8.toNat_ofNat']
  omega

/-- Comparison is nevertheless a total order that agrees with equality of the
numbers, so the values can serve as keys. -/
theorem C47_total (a b c : Nat) :
    ((BigUint.ofNum a).lt (BigUint.ofNum b) = true ∧ (BigUint.ofNum b).lt (BigUint.ofNum c) = true →
      (BigUint.ofNum a).lt (BigUint.ofNum c) = true) ∧
    ((BigUint.ofNum a).lt (BigUint.ofNum b) = true → (BigUint.ofNum b).lt (BigUint.ofNum a) = false) ∧
    ((BigUint.ofNum a).lt (BigUint.ofNum b) = false ∧ (BigUint.ofNum b).lt (BigUint.ofNum a) = false
      ↔ a = b) := by
  simp only [BigUint.lt, decide_eq_true_eq, decide_eq_false_iff_not]
  refine ⟨fun h => List.lt_trans h.1 h.2, fun h h' => List.lt_irrefl _ (List.lt_trans h h'), ?_⟩
  constructor
  · rintro ⟨h1, h2⟩
    have := List.le_antisymm (List.not_lt.mp h2) (List.not_lt.mp h1)
    have hn := congrArg leValue this
    rwa [(C43_shortest a).1, (C43_shortest b).1] at hn
  · rintro rfl
    exact ⟨List.lt_irrefl _, List.lt_irrefl _⟩

/-- The same for `BigInt`. -/
theorem C47_total_int (a b c : Int) :
    ((BigInt.ofNum a).lt (BigInt.ofNum b) = true ∧ (BigInt.ofNum b).lt (BigInt.ofNum c) = true →
      (BigInt.ofNum a).lt (BigInt.ofNum c) = true) ∧
    ((BigInt.ofNum a).lt (BigInt.ofNum b) = true → (BigInt.ofNum b).lt (BigInt.ofNum a) = false) ∧
    ((BigInt.ofNum a).lt (BigInt.ofNum b) = false ∧ (BigInt.ofNum b).lt (BigInt.ofNum a) = false
      ↔ a = b) := by
  simp only [BigInt.lt, decide_eq_true_eq, decide_eq_false_iff_not]
  refine ⟨fun h => List.lt_trans h.1 h.2, fun h h' => List.lt_irrefl _ (List.lt_trans h h'), ?_⟩
  constructor
  · rintro ⟨h1, h2⟩
    have := List.le_antisymm (List.not_lt.mp h2) (List.not_lt.mp h1)
    have hn := congrArg signedValue this
    rwa [(C44_shortest a).1, (C44_shortest b).1] at hn
  · rintro rfl
    exact ⟨List.lt_irrefl _, List.lt_irrefl _⟩

example : ∃ m, m < 300 ∧ (BigUint.ofNum 300).lt (BigUint.ofNum m) = true :=
  C47_inversions 300 (by decide) (by decide)

/-- The same for `BigDecimal`, whatever it holds. -/
theorem C47_total_decimal (a b c : BigDecimal) :
    (a.lt b = true ∧ b.lt c = true → a.lt c = true) ∧
    (a.lt b = true → b.lt a = false) ∧
    (a.lt b = false ∧ b.lt a = false ↔ a = b) := by
  obtain ⟨x, m⟩ := a
  obtain ⟨y, n⟩ := b
  obtain ⟨z, k⟩ := c
  have key : ∀ (x y : List UInt8) (m n : Int64), BigDecimal.lt ⟨x, m⟩ ⟨y, n⟩ = true ↔
      x < y ∨ (x = y ∧ m < n) := fun x y m n => by simp [BigDecimal.lt]
  have irr : ∀ n : Int64, ¬ n < n := fun n => by rw [Int64.lt_iff_toInt_lt]; omega
  have asym : BigDecimal.lt ⟨x, m⟩ ⟨y, n⟩ = true → BigDecimal.lt ⟨y, n⟩ ⟨x, m⟩ = false := by
    rw [← Bool.not_eq_true, key, key]
    rintro (h | ⟨rfl, h⟩) (h' | ⟨h'', h'⟩)
    · exact List.lt_irrefl _ (List.lt_trans h h')
    · subst h''; exact List.lt_irrefl _ h
    · exact List.lt_irrefl _ h'
    · rw [Int64.lt_iff_toInt_lt] at h h'; omega
  refine ⟨?_, asym, ?_⟩
  · rw [key, key, key]
    rintro ⟨h | ⟨rfl, h⟩, h' | ⟨rfl, h'⟩⟩
    · exact .inl (List.lt_trans h h')
    · exact .inl h
    · exact .inl h'
    · exact .inr ⟨rfl, by rw [Int64.lt_iff_toInt_lt] at h h' ⊢; omega⟩
  · constructor
    · rw [← Bool.not_eq_true, ← Bool.not_eq_true, key, key]
      rintro ⟨h1, h2⟩
      have hxy : x = y := List.le_antisymm (List.not_lt.mp fun h => h2 (.inl h))
        (List.not_lt.mp fun h => h1 (.inl h))
      subst hxy
      have hmn : m = n := by
        rw [← Int64.toInt_inj]
        have a1 : ¬ m < n := fun h => h1 (.inr ⟨rfl, h⟩)
        have a2 : ¬ n < m := fun h => h2 (.inr ⟨rfl, h⟩)
        rw [Int64.lt_iff_toInt_lt] at a1 a2
        omega
      rw [hmn]
    · intro h
      obtain ⟨rfl, rfl⟩ := (BigDecimal.mk.injEq ..).mp h
      have : BigDecimal.lt ⟨x, m⟩ ⟨x, m⟩ = false := by
        rw [← Bool.not_eq_true, key]
        rintro (h | ⟨-, h⟩)
        · exact List.lt_irrefl _ h
        · exact irr m h
      exact ⟨this, this⟩

/-! ## C48 zero -/

/-- A converted `BigDecimal` without digits has scale 0. -/
theorem C48_converted (mode : BuildMode) (v : Decimal) (b : BigDecimal)
    (h : BigDecimal.ofNum mode v = .ok b) (h0 : b.signedBytes = []) : b.scale = 0 := by
  obtain ⟨enc, he, hd⟩ := C45_roundtrip ⟨.w64, 4096⟩ mode v b h (by rw [h0]; decide)
  rw [BigDecimal.exec_ser b (by rw [h0]; decide)] at he
  cases he
  have h2 := hd []
  have h3 := BigDecimal.exec_de ⟨.w64, 4096⟩ .eof ⟨[], 0⟩ (by decide) (fun _ => rfl) []
  rw [decimalWire, if_pos h0] at h2
  rw [decimalWire, if_pos rfl] at h3
  have : (Outcome.ok (b, ([] : List UInt8)) : Outcome DeErr _) = .ok (⟨[], 0⟩, []) :=
    h2.symm.trans h3
  cases this
  rfl

/-- A decoded `BigDecimal` without digits has scale 0, from every reader. -/
theorem C48_decoded (t : Target) (fin : Ending) (bs rest : List UInt8) (b : BigDecimal)
    (h : Prog.exec t fin (BigDecimal.de t) bs = .ok (b, rest)) (h0 : b.signedBytes = []) :
    b.scale = 0 := by
  rw [BigDecimal.de, Prog.bind_eq, Prog.exec_bind] at h
  cases hx : Prog.exec t fin (De.deVecU8 t) bs with
  | err e => rw [hx] at h; cases h
  | panic p => rw [hx] at h; cases h
  | ok a =>
    obtain ⟨v, r⟩ := a
    rw [hx, Prog.next_ok] at h
    split at h
    · cases h; rfl
    · rename_i hv
      exfalso
      rw [Prog.bind_eq, Prog.exec_bind] at h
      cases hy : Prog.exec t fin De.deI64 r with
      | err e => rw [hy] at h; cases h
      | panic p => rw [hy] at h; cases h
      | ok a =>
        rw [hy] at h
        cases h
        exact hv (by simpa using h0)

/-- Hence a decoded `BigDecimal` always re-encodes to bytes that decode to it. -/
theorem C48_reencode (t : Target) (fin : Ending) (bs rest : List UInt8) (b : BigDecimal)
    (h : Prog.exec t fin (BigDecimal.de t) bs = .ok (b, rest))
    (hl : b.signedBytes.length < 2 ^ t.ptr.bits) :
    ∃ enc, b.ser.exec = (enc, .ok ()) ∧
      ∀ rest', Prog.run t (BigDecimal.de t) (enc ++ rest') = .ok (b, rest') :=
  ⟨_, BigDecimal.exec_ser b (De.lt_64_of_lt_bits hl), fun rest' =>
    BigDecimal.exec_de t _ b hl (C48_decoded t fin bs rest b h) rest'⟩

example (t : Target) : Prog.exec t .eof (BigDecimal.de t) [0] = .ok (⟨[], 0⟩, []) :=
  BigDecimal.exec_de t .eof ⟨[], 0⟩ (Nat.two_pow_pos _) (fun _ => rfl) []

end Dlhn.Props
