import Verif.Spec.Body
import Verif.Proof.Ser
import Verif.Proof.De
/-! # Big numbers, dates and timestamps: bytes written and read -/
namespace Dlhn

open Spec PrefixVarint

theorem Ser.exec_serU8s (bs : List UInt8) : (Ser.serU8s bs).exec = (bs, .ok ()) := by
  induction bs with
  | nil => rfl
  | cons b bs ih =>
    rw [Ser.serU8s, Ser.serU8, WProg.exec_andThen_ok (Ser.exec_emit _), ih]
    rfl

theorem Ser.exec_serVecU8 (bs : List UInt8) (h : bs.length < 2 ^ 64) :
    (Ser.serVecU8 bs).exec = (block bs, .ok ()) := by
  rw [Ser.serVecU8, WProg.exec_andThen_ok (Ser.exec_serLen _ h), Ser.exec_serU8s]
  rfl

theorem De.deVecU8_block (t : Target) (fin : Ending) (bs rest : List UInt8)
    (h : bs.length < 2 ^ t.ptr.bits) :
    Prog.exec t fin (De.deVecU8 t) (block bs ++ rest) = .ok (bs, rest) := by
  rw [De.deVecU8, Prog.bind_eq, Prog.exec_bind, block, List.append_assoc,
    De.exec_u64_varint _ _ _ (De.lt_64_of_lt_bits h), Prog.next_ok, De.asUsize_ofNat h]
  have := De.exec_times t fin De.deU8 (fun b => [b]) bs rest
    (fun a _ r => De.deU8_wire t fin a r)
  have hf : ∀ l : List UInt8, (l.map fun b => [b]).flatten = l := fun l => by
    induction l with
    | nil => rfl
    | cons a l ih => simp [ih]
  rwa [hf] at this

namespace BigUint

theorem exec_ser (b : BigUint) (h : b.bytes.length < 2 ^ 64) : b.ser.exec = (block b.bytes, .ok ()) := by
  rw [ser, WProg.exec_andThen_ok (Ser.exec_serHint none (by simp)), Ser.exec_serVecU8 _ h]
  rfl

theorem exec_de (t : Target) (fin : Ending) (b : BigUint) (h : b.bytes.length < 2 ^ t.ptr.bits)
    (rest : List UInt8) : Prog.exec t fin (de t) (block b.bytes ++ rest) = .ok (b, rest) :=
  De.exec_wrap t fin _ BigUint.mk _ _ _ (De.deVecU8_block t fin b.bytes rest h)

end BigUint

namespace BigInt

theorem exec_ser (b : BigInt) (h : b.bytes.length < 2 ^ 64) : b.ser.exec = (block b.bytes, .ok ()) := by
  rw [ser, WProg.exec_andThen_ok (Ser.exec_serHint none (by simp)), Ser.exec_serVecU8 _ h]
  rfl

theorem exec_de (t : Target) (fin : Ending) (b : BigInt) (h : b.bytes.length < 2 ^ t.ptr.bits)
    (rest : List UInt8) : Prog.exec t fin (de t) (block b.bytes ++ rest) = .ok (b, rest) :=
  De.exec_wrap t fin _ BigInt.mk _ _ _ (De.deVecU8_block t fin b.bytes rest h)

end BigInt

theorem block_nil : block [] = [0] := by decide +kernel

namespace BigDecimal

theorem exec_ser (b : BigDecimal) (h : b.signedBytes.length < 2 ^ 64) :
    b.ser.exec = (decimalWire b, .ok ()) := by
  rw [ser, WProg.exec_andThen_ok (Ser.exec_serHint none (by simp)), decimalWire]
  split
  · rw [Ser.serU8, Ser.exec_emit]; rfl
  · rw [WProg.exec_andThen_ok (Ser.exec_serVecU8 _ h), Ser.exec_serI64]; rfl

theorem exec_de (t : Target) (fin : Ending) (b : BigDecimal)
    (h : b.signedBytes.length < 2 ^ t.ptr.bits) (h0 : b.signedBytes = [] → b.scale = 0)
    (rest : List UInt8) : Prog.exec t fin (de t) (decimalWire b ++ rest) = .ok (b, rest) := by
  obtain ⟨bs, scale⟩ := b
  simp only at h h0
  rw [de, Prog.bind_eq, Prog.exec_bind, decimalWire]
  by_cases hb : bs = []
  · subst hb
    rw [if_pos rfl, ← block_nil, De.deVecU8_block _ _ _ _ (by simp; exact Nat.two_pow_pos _),
      Prog.next_ok, h0 rfl]
    rfl
  · simp only [hb, if_false]
    rw [List.append_assoc, De.deVecU8_block _ _ _ _ h, Prog.next_ok,
      if_neg (by simpa using hb)]
    exact De.exec_wrap t fin _ (BigDecimal.mk bs) _ _ _ (De.deI64_wire t fin scale rest)

end BigDecimal

/-! ## Dates -/

theorem addI32_sub (mode : BuildMode) (y c : Int32) : subI32 mode y c = none ∨
    (subI32 mode y c = some (y - c) ∧ addI32 mode (y - c) c = some y) := by
  cases mode with
  | release => right; simp [subI32, addI32]
  | debug =>
    simp only [subI32]
    split
    · rename_i h
      right
      refine ⟨rfl, ?_⟩
      have h1 := Int32.toInt_lt y
      have h2 := Int32.le_toInt y
      have hs : (y - c).toInt = y.toInt - c.toInt := by
        rw [Int32.toInt_sub]
        exact Int.bmod_eq_of_le (by omega) (by omega)
      simp only [addI32]
      rw [if_pos (by omega)]
      simp
    · exact Or.inl rfl

theorem addU16_sub (mode : BuildMode) (y c : UInt16) : subU16 mode y c = none ∨
    (subU16 mode y c = some (y - c) ∧ addU16 mode (y - c) c = some y) := by
  cases mode with
  | release => right; simp [subU16, addU16]
  | debug =>
    simp only [subU16]
    split
    · rename_i h
      right
      refine ⟨rfl, ?_⟩
      have hs : (y - c).toNat = y.toNat - c.toNat := UInt16.toNat_sub_of_le _ _ h
      have := UInt16.toNat_lt y
      simp only [addU16]
      rw [if_pos (by omega)]
      simp
    · exact Or.inl rfl

theorem subI32_ok {mode : BuildMode} {y : Int32} (h : mode = .debug → -2 ^ 31 + 2000 ≤ y.toInt) :
    subI32 mode y 2000 = some (y - 2000) := by
  cases mode with
  | release => rfl
  | debug =>
    have := h rfl
    have h1 := Int32.toInt_lt y
    have h2 : (2000 : Int32).toInt = 2000 := by decide
    simp only [subI32, h2]
    rw [if_pos (by omega)]

theorem subU16_ok {mode : BuildMode} {y : UInt16} (h : mode = .debug → 1 ≤ y.toNat) :
    subU16 mode y 1 = some (y - 1) := by
  cases mode with
  | release => rfl
  | debug =>
    have := h rfl
    simp only [subU16]
    rw [if_pos (by simpa using this)]

namespace Date

theorem exec_ser (mode : BuildMode) (d : Date) (h : mode = .debug → DateFits d) :
    (d.ser mode).exec = (dateWire d, .ok ()) := by
  have h1 : subI32 mode d.year 2000 = some (d.year - 2000) := subI32_ok fun e => (h e).1
  have h2 : subU16 mode d.ordinal 1 = some (d.ordinal - 1) := subU16_ok fun e => (h e).2
  simp only [ser, DATE_YEAR_OFFSET, DATE_ORDINAL_OFFSET, h1, h2]
  rw [WProg.exec_andThen_ok (Ser.exec_serI32 _), Ser.exec_serU16]
  rfl

theorem exec_de (t : Target) (fin : Ending) (mode : BuildMode) (d : Date)
    (h : mode = .debug → DateFits d) (rest : List UInt8) :
    Prog.exec t fin (de mode) (dateWire d ++ rest) = .ok (d, rest) := by
  have h1 : subI32 mode d.year 2000 = some (d.year - 2000) := subI32_ok fun e => (h e).1
  have h2 : subU16 mode d.ordinal 1 = some (d.ordinal - 1) := subU16_ok fun e => (h e).2
  have h3 : addI32 mode (d.year - 2000) 2000 = some d.year := by
    rcases addI32_sub mode d.year 2000 with e | e
    · rw [h1] at e; cases e
    · exact e.2
  have h4 : addU16 mode (d.ordinal - 1) 1 = some d.ordinal := by
    rcases addU16_sub mode d.ordinal 1 with e | e
    · rw [h2] at e; cases e
    · exact e.2
  rw [de, Prog.bind_eq, Prog.exec_bind, dateWire, List.append_assoc, De.deI32_wire, Prog.next_ok]
  simp only [DATE_YEAR_OFFSET, DATE_ORDINAL_OFFSET, h3]
  rw [Prog.bind_eq, Prog.exec_bind, De.deU16, De.exec_u16_varint _ _ _ (UInt16.toNat_lt _),
    Prog.next_ok, UInt16.ofNat_toNat]
  simp only [h4]
  rfl

end Date

namespace DateTime

theorem exec_ser (d : DateTime) : d.ser.exec = (dateTimeWire d, .ok ()) := by
  rw [ser, WProg.exec_andThen_ok (Ser.exec_serI64 _), Ser.exec_serU32]
  rfl

theorem exec_de (t : Target) (fin : Ending) (d : DateTime) (rest : List UInt8) :
    Prog.exec t fin de (dateTimeWire d ++ rest) = .ok (d, rest) := by
  rw [de, Prog.bind_eq, Prog.exec_bind, dateTimeWire, List.append_assoc, De.deI64_wire,
    Prog.next_ok, Prog.bind_eq, Prog.exec_bind, De.deU32,
    De.exec_u32_varint _ _ _ (UInt32.toNat_lt _), Prog.next_ok, UInt32.ofNat_toNat]
  rfl

end DateTime
end Dlhn
