import Verif.Proof.DeHas
import Verif.Proof.Ser
/-!
# C01-C06: integers on the wire

`Ser.toVec v` is what `Serializer` writes into a `Vec` and its result;
`Prog.run t (De.de t ty) bs` is what deserializing `ty` from the slice `bs`
returns, together with the bytes left unread.
-/
namespace Dlhn.Props

open Spec De
open PrefixVarint (groups_pos groups_le_iff)

/-! ## C01 unsigned integers round-trip -/

theorem C01_u8 (t : Target) (v : UInt8) : ∃ enc, Ser.toVec (.u8 v) = (enc, .ok ()) ∧
    ∀ rest, Prog.run t (de t .u8) (enc ++ rest) = .ok (.u8 v, rest) := by
  refine ⟨_, Ser.exec_ser (.u8 v) trivial trivial, fun rest => ?_⟩
  rw [wire, de]
  exact exec_wrap t _ _ _ _ _ _ (deU8_wire t _ v rest)

theorem C01_u16 (t : Target) (v : UInt16) : ∃ enc, Ser.toVec (.u16 v) = (enc, .ok ()) ∧
    ∀ rest, Prog.run t (de t .u16) (enc ++ rest) = .ok (.u16 v, rest) := by
  refine ⟨_, Ser.exec_ser (.u16 v) trivial trivial, fun rest => ?_⟩
  have := exec_u16_varint t .eof v.toNat v.toNat_lt rest
  rw [UInt16.ofNat_toNat] at this
  rw [wire, de]
  exact exec_wrap t _ _ _ _ _ _ this

theorem C01_u32 (t : Target) (v : UInt32) : ∃ enc, Ser.toVec (.u32 v) = (enc, .ok ()) ∧
    ∀ rest, Prog.run t (de t .u32) (enc ++ rest) = .ok (.u32 v, rest) := by
  refine ⟨_, Ser.exec_ser (.u32 v) trivial trivial, fun rest => ?_⟩
  have := exec_u32_varint t .eof v.toNat v.toNat_lt rest
  rw [UInt32.ofNat_toNat] at this
  rw [wire, de]
  exact exec_wrap t _ _ _ _ _ _ this

theorem C01_u64 (t : Target) (v : UInt64) : ∃ enc, Ser.toVec (.u64 v) = (enc, .ok ()) ∧
    ∀ rest, Prog.run t (de t .u64) (enc ++ rest) = .ok (.u64 v, rest) := by
  refine ⟨_, Ser.exec_ser (.u64 v) trivial trivial, fun rest => ?_⟩
  have := exec_u64_varint t .eof v.toNat v.toNat_lt rest
  rw [UInt64.ofNat_toNat] at this
  rw [wire, de]
  exact exec_wrap t _ _ _ _ _ _ this

/-- The `PrefixVarint` impl of `u8` (dlhn/src/prefix_varint.rs:25-49), which the
serde layer does not use. -/
theorem C01_prefix_varint_u8 (t : Target) (v : UInt8) (rest : List UInt8) :
    Prog.run t PrefixVarint.decodeU8 (PrefixVarint.vecU8 v ++ rest) = .ok (v, rest) := by
  have h : ∀ v : BitVec 8, PrefixVarint.vecU8 ⟨v⟩ =
      if v.toNat < 128 then [⟨v⟩] else [0x80, ⟨v⟩] := by decide +kernel
  have h' := h v.toBitVec
  have hv : (⟨v.toBitVec⟩ : UInt8) = v := rfl
  rw [hv] at h'
  rw [h']
  split
  · rename_i hlt
    have hlt : v < 128 := hlt
    simp [Prog.run, PrefixVarint.decodeU8, Prog.exec_bind, PrefixVarint.exec_decodePrefix, hlt,
      Prog.exec]
  · have hge : ¬ ((0x80 : UInt8) < 128) := by decide
    simp [Prog.run, PrefixVarint.decodeU8, Prog.exec_bind, PrefixVarint.exec_decodePrefix, hge,
      Prog.exec, takeVec]

example : Ser.toVec (.u32 300) = ([172, 4], .ok ()) := by decide +kernel
example : Ser.toVec (.u64 (2 ^ 63)) = ([255, 0, 0, 0, 0, 0, 0, 0, 128], .ok ()) := by
  decide +kernel

/-! ## C02 signed integers round-trip -/

theorem C02_i8 (t : Target) (v : Int8) : ∃ enc, Ser.toVec (.i8 v) = (enc, .ok ()) ∧
    ∀ rest, Prog.run t (de t .i8) (enc ++ rest) = .ok (.i8 v, rest) := by
  refine ⟨_, Ser.exec_ser (.i8 v) trivial trivial, fun rest => ?_⟩
  rw [wire, de]
  exact exec_wrap t _ _ _ _ _ _ (deI8_wire t _ v rest)

theorem C02_i16 (t : Target) (v : Int16) : ∃ enc, Ser.toVec (.i16 v) = (enc, .ok ()) ∧
    ∀ rest, Prog.run t (de t .i16) (enc ++ rest) = .ok (.i16 v, rest) := by
  refine ⟨_, Ser.exec_ser (.i16 v) trivial trivial, fun rest => ?_⟩
  rw [wire, de]
  exact exec_wrap t _ _ _ _ _ _ (deI16_wire t _ v rest)

theorem C02_i32 (t : Target) (v : Int32) : ∃ enc, Ser.toVec (.i32 v) = (enc, .ok ()) ∧
    ∀ rest, Prog.run t (de t .i32) (enc ++ rest) = .ok (.i32 v, rest) := by
  refine ⟨_, Ser.exec_ser (.i32 v) trivial trivial, fun rest => ?_⟩
  rw [wire, de]
  exact exec_wrap t _ _ _ _ _ _ (deI32_wire t _ v rest)

theorem C02_i64 (t : Target) (v : Int64) : ∃ enc, Ser.toVec (.i64 v) = (enc, .ok ()) ∧
    ∀ rest, Prog.run t (de t .i64) (enc ++ rest) = .ok (.i64 v, rest) := by
  refine ⟨_, Ser.exec_ser (.i64 v) trivial trivial, fun rest => ?_⟩
  rw [wire, de]
  exact exec_wrap t _ _ _ _ _ _ (deI64_wire t _ v rest)

example : Ser.toVec (.i32 (-65)) = ([129, 2], .ok ()) := by decide +kernel
example : Ser.toVec (.i64 (-2 ^ 63)) = (List.replicate 9 255, .ok ()) := by decide +kernel

/-! ## C03 unsigned wire format -/

/-- `groups v` is the least `k ≥ 1` with `v < 2 ^ (7 k)`. -/
theorem C03_groups (v : Nat) : 1 ≤ groups v ∧ v < 2 ^ (7 * groups v) ∧
    ∀ k, 1 ≤ k → v < 2 ^ (7 * k) → groups v ≤ k := by
  have h := groups_pos v
  refine ⟨h, ?_, ?_⟩
  · have := (groups_le_iff (groups v - 1) v).mp (by omega)
    rwa [show groups v - 1 + 1 = groups v by omega] at this
  · intro k hk hv
    have := (groups_le_iff (k - 1) v).mpr (by rwa [show k - 1 + 1 = k by omega])
    omega

theorem C03_u8 (v : UInt8) : Ser.toVec (.u8 v) = ([v], .ok ()) := Ser.exec_ser (.u8 v) trivial trivial
theorem C03_u16 (v : UInt16) : Ser.toVec (.u16 v) = (varint 16 v.toNat, .ok ()) := Ser.exec_serU16 v
theorem C03_u32 (v : UInt32) : Ser.toVec (.u32 v) = (varint 32 v.toNat, .ok ()) := Ser.exec_serU32 v
theorem C03_u64 (v : UInt64) : Ser.toVec (.u64 v) = (varint 64 v.toNat, .ok ()) := Ser.exec_serU64 v

/-- The first byte announces the number of bytes that follow. -/
theorem C03_first_byte (w v : Nat) (hw : w = 16 ∨ w = 32 ∨ w = 64) :
    ∃ b bs, varint w v = b :: bs ∧ extraBytes w b = bs.length := by
  have hg := groups_pos v
  have hw8 : w / 8 ≤ 8 ∧ 2 ≤ w / 8 := by rcases hw with h | h | h <;> subst h <;> decide
  simp only [varint]
  split
  · rename_i hk
    refine ⟨_, _, rfl, ?_⟩
    rw [length_leBytes]
    have h1 : (256 - 2 ^ (9 - groups v) + v % 2 ^ (8 - groups v)) < 256 := by
      have : v % 2 ^ (8 - groups v) < 2 ^ (8 - groups v) := Nat.mod_lt _ (Nat.two_pow_pos _)
      have h2 : 2 ^ (9 - groups v) = 2 * 2 ^ (8 - groups v) := by
        rw [show 9 - groups v = (8 - groups v) + 1 by omega, Nat.pow_succ]; omega
      have h3 : 2 ^ (9 - groups v) ≤ 2 ^ 8 := Nat.pow_le_pow_right (by omega) (by omega)
      have := Nat.two_pow_pos (8 - groups v)
      omega
    have h2 : (UInt8.ofNat (256 - 2 ^ (9 - groups v) + v % 2 ^ (8 - groups v))).toNat
        = 256 - 2 ^ (9 - groups v) + v % 2 ^ (8 - groups v) := by
      rw [UInt8.toNat_ofNat', Nat.mod_eq_of_lt h1]
    have hl : leadingOnes (UInt8.ofNat (256 - 2 ^ (9 - groups v) + v % 2 ^ (8 - groups v)))
        = groups v - 1 := by
      refine leadingOnes_char _ _ (by omega) ?_ ?_
      · rw [h2, show 8 - (groups v - 1) = 9 - groups v by omega]; omega
      · intro _
        rw [h2, show 7 - (groups v - 1) = 8 - groups v by omega]
        have : v % 2 ^ (8 - groups v) < 2 ^ (8 - groups v) := Nat.mod_lt _ (Nat.two_pow_pos _)
        have h2 : 2 ^ (9 - groups v) = 2 * 2 ^ (8 - groups v) := by
          rw [show 9 - groups v = (8 - groups v) + 1 by omega, Nat.pow_succ]; omega
        have h3 : 2 ^ (9 - groups v) ≤ 2 ^ 8 := Nat.pow_le_pow_right (by omega) (by omega)
        omega
    rw [extraBytes, hl]
    omega
  · refine ⟨_, _, rfl, ?_⟩
    rw [length_leBytes]
    rcases hw with h | h | h <;> subst h <;> decide +kernel

example : varint 16 16384 = [192, 0, 64] := by decide +kernel
example : varint 64 16384 = [192, 0, 2] := by decide +kernel

/-! ## C04 shortest encodings -/

/-- The integer types. -/
def intTypes : List Ty := [.u8, .u16, .u32, .u64, .i8, .i16, .i32, .i64]

theorem C04_shortest (t : Target) (ty : Ty) (hty : ty ∈ intTypes) (bs rest : List UInt8) (v : Val)
    (h : Prog.run t (de t ty) bs = .ok (v, rest)) :
    (Ser.toVec v).2 = .ok () ∧ (Ser.toVec v).1.length + rest.length ≤ bs.length := by
  have key : ∀ {v : Val} {Q : Nat → Prop}, Serializable v → Fits v → (∃ n, n + rest.length = bs.length ∧ Q n) →
      (∀ n, Q n → (wire v).length ≤ n) →
      (Ser.toVec v).2 = .ok () ∧ (Ser.toVec v).1.length + rest.length ≤ bs.length := by
    intro v Q h1 h2 ⟨n, h3, h4⟩ h5
    have := h5 n h4
    rw [Ser.toVec, Ser.exec_ser v h1 h2]
    exact ⟨rfl, by simp only; omega⟩
  simp only [intTypes, List.mem_cons, List.not_mem_nil, or_false] at hty
  have y1 : ∀ {α : Type} (f : Vector UInt8 1 → α), Prog.Yields t (readBytes 1 >>= fun b => pure (f b))
      fun _ n => n = 1 := fun f => yields_wrap (yields_read t 1) f fun _ _ h => h
  rcases hty with rfl | rfl | rfl | rfl | rfl | rfl | rfl | rfl
  · rw [de] at h
    obtain ⟨n, hn, b, rfl, hq⟩ := yields_wrap (R := fun v n => ∃ b, v = .u8 b ∧ n = 1)
      (y1 fun b => b[0]) Val.u8 (fun a n h => ⟨a, rfl, h⟩) _ _ _ _ h
    exact key (Q := fun n => n = 1) trivial trivial ⟨n, hn, hq⟩
      (fun m hm => by rw [wire]; simp [hm])
  · rw [de] at h
    obtain ⟨n, hn, b, rfl, hq⟩ := yields_wrap
      (R := fun v n => ∃ b, v = .u16 b ∧ varintLen 16 b.toNat ≤ n)
      (yields_u16 t) Val.u16 (fun a n h => ⟨a, rfl, h⟩) _ _ _ _ h
    exact key trivial trivial ⟨n, hn, hq⟩ (fun m hm => by rwa [wire, length_varint])
  · rw [de] at h
    obtain ⟨n, hn, b, rfl, hq⟩ := yields_wrap
      (R := fun v n => ∃ b, v = .u32 b ∧ varintLen 32 b.toNat ≤ n)
      (yields_u32 t) Val.u32 (fun a n h => ⟨a, rfl, h⟩) _ _ _ _ h
    exact key trivial trivial ⟨n, hn, hq⟩ (fun m hm => by rwa [wire, length_varint])
  · rw [de] at h
    obtain ⟨n, hn, b, rfl, hq⟩ := yields_wrap
      (R := fun v n => ∃ b, v = .u64 b ∧ varintLen 64 b.toNat ≤ n)
      (yields_u64 t) Val.u64 (fun a n h => ⟨a, rfl, h⟩) _ _ _ _ h
    exact key trivial trivial ⟨n, hn, hq⟩ (fun m hm => by rwa [wire, length_varint])
  · rw [de] at h
    obtain ⟨n, hn, b, rfl, hq⟩ := yields_wrap (R := fun v n => ∃ b, v = .i8 b ∧ n = 1)
      (y1 fun b => b[0].toInt8) Val.i8 (fun a n h => ⟨a, rfl, h⟩) _ _ _ _ h
    exact key (Q := fun n => n = 1) trivial trivial ⟨n, hn, hq⟩
      (fun m hm => by rw [wire]; simp [hm])
  · rw [de] at h
    obtain ⟨n, hn, b, rfl, hq⟩ := yields_wrap
      (R := fun v n => ∃ b, v = .i16 b ∧ varintLen 16 (zigzag b.toInt) ≤ n)
      (yields_wrap (R := fun (v : Int16) n => varintLen 16 (zigzag v.toInt) ≤ n) (yields_u16 t) _
        fun v n hn => by rw [← ZigZag.encodeI16_spec, ZigZag.encode_decodeI16]; exact hn)
      Val.i16 (fun a n h => ⟨a, rfl, h⟩) _ _ _ _ h
    exact key trivial trivial ⟨n, hn, hq⟩ (fun m hm => by rwa [wire, length_varint])
  · rw [de] at h
    obtain ⟨n, hn, b, rfl, hq⟩ := yields_wrap
      (R := fun v n => ∃ b, v = .i32 b ∧ varintLen 32 (zigzag b.toInt) ≤ n)
      (yields_wrap (R := fun (v : Int32) n => varintLen 32 (zigzag v.toInt) ≤ n) (yields_u32 t) _
        fun v n hn => by rw [← ZigZag.encodeI32_spec, ZigZag.encode_decodeI32]; exact hn)
      Val.i32 (fun a n h => ⟨a, rfl, h⟩) _ _ _ _ h
    exact key trivial trivial ⟨n, hn, hq⟩ (fun m hm => by rwa [wire, length_varint])
  · rw [de] at h
    obtain ⟨n, hn, b, rfl, hq⟩ := yields_wrap
      (R := fun v n => ∃ b, v = .i64 b ∧ varintLen 64 (zigzag b.toInt) ≤ n)
      (yields_wrap (R := fun (v : Int64) n => varintLen 64 (zigzag v.toInt) ≤ n) (yields_u64 t) _
        fun v n hn => by rw [← ZigZag.encodeI64_spec, ZigZag.encode_decodeI64]; exact hn)
      Val.i64 (fun a n h => ⟨a, rfl, h⟩) _ _ _ _ h
    exact key trivial trivial ⟨n, hn, hq⟩ (fun m hm => by rwa [wire, length_varint])

/-- A redundant form: 5 in three bytes, although the encoder writes one. -/
example (t : Target) : ∃ v : UInt16, Prog.run t (io PrefixVarint.decodeU16) [192, 5, 0] = .ok (v, [])
    ∧ v.toNat = 5 := by
  refine ⟨5, ?_, rfl⟩
  rw [Prog.run, exec_u16]
  decide +kernel

/-! ## C05 zigzag -/

theorem C05_i16 (v : Int16) : Ser.toVec (.i16 v) =
    (varint 16 (if 0 ≤ v.toInt then (2 * v.toInt).toNat else (-2 * v.toInt - 1).toNat), .ok ()) :=
  Ser.exec_serI16 v
theorem C05_i32 (v : Int32) : Ser.toVec (.i32 v) =
    (varint 32 (if 0 ≤ v.toInt then (2 * v.toInt).toNat else (-2 * v.toInt - 1).toNat), .ok ()) :=
  Ser.exec_serI32 v
theorem C05_i64 (v : Int64) : Ser.toVec (.i64 v) =
    (varint 64 (if 0 ≤ v.toInt then (2 * v.toInt).toNat else (-2 * v.toInt - 1).toNat), .ok ()) :=
  Ser.exec_serI64 v
/-- i8 is not zigzagged: one raw byte. -/
theorem C05_i8 (v : Int8) : Ser.toVec (.i8 v) = ([v.toUInt8], .ok ()) :=
  Ser.exec_ser (.i8 v) trivial trivial

/-- The numbering is a bijection between the integers and the naturals. -/
theorem C05_bijection : (∀ x y : Int, zigzag x = zigzag y → x = y) ∧ ∀ n, ∃ x, zigzag x = n :=
  ⟨fun x y h => by rw [← ZigZag.unzigzag_zigzag x, h, ZigZag.unzigzag_zigzag],
   fun n => ⟨unzigzag n, ZigZag.zigzag_unzigzag n⟩⟩

/-- Small magnitudes get short encodings: `k` groups of seven bits suffice
exactly for `-2^(7k-1) ≤ x < 2^(7k-1)`. -/
theorem C05_magnitude (x : Int) (k : Nat) (hk : 1 ≤ k) :
    groups (zigzag x) ≤ k ↔ -2 ^ (7 * k - 1) ≤ x ∧ x < 2 ^ (7 * k - 1) := by
  obtain ⟨j, rfl⟩ : ∃ j, k = j + 1 := ⟨k - 1, by omega⟩
  rw [groups_le_iff]
  have hp : (2 : Nat) ^ (7 * (j + 1)) = 2 * 2 ^ (7 * (j + 1) - 1) := by
    rw [← Nat.pow_succ']; congr 1
  have hq : ((2 : Int) ^ (7 * (j + 1) - 1)) = ((2 ^ (7 * (j + 1) - 1) : Nat) : Int) := by
    rw [Int.natCast_pow]; rfl
  rw [hp, hq]
  generalize 2 ^ (7 * (j + 1) - 1) = m
  simp only [zigzag]
  split <;> omega

example : groups (zigzag (-64)) = 1 ∧ groups (zigzag 64) = 2 := by decide +kernel

/-! ## C06 integer decoding is total, length fixed by the first byte -/

/-- Bytes of the type other than the first byte, by the type's width. -/
theorem C06_nil (t : Target) (ty : Ty) (hty : ty ∈ intTypes) :
    Prog.run t (de t ty) [] = .err .read := by
  simp only [intTypes, List.mem_cons, List.not_mem_nil, or_false] at hty
  rcases hty with rfl | rfl | rfl | rfl | rfl | rfl | rfl | rfl <;> rw [de] <;> rfl

private theorem run_wrap (t : Target) {α : Type} (p : Prog DeErr α) (f : α → Val) (w : Nat)
    (conv : Nat → α) (h : ∀ fin bs, Prog.exec t fin p bs = ofDec conv (varintDecode w bs))
    (b : UInt8) (bs : List UInt8) :
    (bs.length < extraBytes w b → Prog.run t (p >>= fun a => pure (f a)) (b :: bs) = .err .read) ∧
    (extraBytes w b ≤ bs.length → ∃ v, Prog.run t (p >>= fun a => pure (f a)) (b :: bs)
      = .ok (v, bs.drop (extraBytes w b))) := by
  constructor
  · intro hlt
    rw [Prog.run, Prog.bind_eq, Prog.exec_bind, h, (varintDecode_none_iff w b bs).mpr hlt]
    rfl
  · intro hle
    cases hd : varintDecode w (b :: bs) with
    | none => have := (varintDecode_none_iff w b bs).mp hd; omega
    | some vr =>
      obtain ⟨v, r⟩ := vr
      refine ⟨f (conv v), ?_⟩
      have hr : r = bs.drop (extraBytes w b) := by
        simp only [varintDecode, if_neg (Nat.not_lt.mpr hle)] at hd
        split at hd <;> simp at hd <;> exact hd.2.symm
      rw [Prog.run, Prog.bind_eq, Prog.exec_bind, h, hd, ofDec, Prog.next_ok, hr]
      rfl

theorem C06_u16 (t : Target) (b : UInt8) (bs : List UInt8) :
    (bs.length < extraBytes 16 b → Prog.run t (de t .u16) (b :: bs) = .err .read) ∧
    (extraBytes 16 b ≤ bs.length →
      ∃ v, Prog.run t (de t .u16) (b :: bs) = .ok (v, bs.drop (extraBytes 16 b))) := by
  rw [de]
  exact run_wrap t _ _ 16 UInt16.ofNat (fun fin bs => exec_u16 t fin bs) b bs
theorem C06_u32 (t : Target) (b : UInt8) (bs : List UInt8) :
    (bs.length < extraBytes 32 b → Prog.run t (de t .u32) (b :: bs) = .err .read) ∧
    (extraBytes 32 b ≤ bs.length →
      ∃ v, Prog.run t (de t .u32) (b :: bs) = .ok (v, bs.drop (extraBytes 32 b))) := by
  rw [de]
  exact run_wrap t _ _ 32 UInt32.ofNat (fun fin bs => exec_u32 t fin bs) b bs
theorem C06_u64 (t : Target) (b : UInt8) (bs : List UInt8) :
    (bs.length < extraBytes 64 b → Prog.run t (de t .u64) (b :: bs) = .err .read) ∧
    (extraBytes 64 b ≤ bs.length →
      ∃ v, Prog.run t (de t .u64) (b :: bs) = .ok (v, bs.drop (extraBytes 64 b))) := by
  rw [de]
  exact run_wrap t _ _ 64 UInt64.ofNat (fun fin bs => exec_u64 t fin bs) b bs

private theorem exec_zig {α β : Type} (t : Target) (p : Prog DeErr α) (w : Nat) (conv : Nat → α)
    (g : α → β) (h : ∀ fin bs, Prog.exec t fin p bs = ofDec conv (varintDecode w bs)) (fin : Ending)
    (bs : List UInt8) : Prog.exec t fin (p >>= fun v => pure (g v)) bs
      = ofDec (fun n => g (conv n)) (varintDecode w bs) := by
  rw [Prog.bind_eq, Prog.exec_bind, h]
  cases varintDecode w bs <;> rfl

theorem C06_i16 (t : Target) (b : UInt8) (bs : List UInt8) :
    (bs.length < extraBytes 16 b → Prog.run t (de t .i16) (b :: bs) = .err .read) ∧
    (extraBytes 16 b ≤ bs.length →
      ∃ v, Prog.run t (de t .i16) (b :: bs) = .ok (v, bs.drop (extraBytes 16 b))) := by
  rw [de]
  exact run_wrap t _ _ 16 _ (exec_zig t _ 16 UInt16.ofNat _ (fun fin bs => exec_u16 t fin bs)) b bs
theorem C06_i32 (t : Target) (b : UInt8) (bs : List UInt8) :
    (bs.length < extraBytes 32 b → Prog.run t (de t .i32) (b :: bs) = .err .read) ∧
    (extraBytes 32 b ≤ bs.length →
      ∃ v, Prog.run t (de t .i32) (b :: bs) = .ok (v, bs.drop (extraBytes 32 b))) := by
  rw [de]
  exact run_wrap t _ _ 32 _ (exec_zig t _ 32 UInt32.ofNat _ (fun fin bs => exec_u32 t fin bs)) b bs
theorem C06_i64 (t : Target) (b : UInt8) (bs : List UInt8) :
    (bs.length < extraBytes 64 b → Prog.run t (de t .i64) (b :: bs) = .err .read) ∧
    (extraBytes 64 b ≤ bs.length →
      ∃ v, Prog.run t (de t .i64) (b :: bs) = .ok (v, bs.drop (extraBytes 64 b))) := by
  rw [de]
  exact run_wrap t _ _ 64 _ (exec_zig t _ 64 UInt64.ofNat _ (fun fin bs => exec_u64 t fin bs)) b bs

/-- The value of any accepted form, redundant or not, is the one the
specification assigns. -/
theorem C06_value_u64 (t : Target) (bs rest : List UInt8) (v : UInt64) :
    Prog.run t (de t .u64) bs = .ok (.u64 v, rest) ↔ varintDecode 64 bs = some (v.toNat, rest) := by
  rw [de, deU64, Prog.run, exec_zig t _ 64 UInt64.ofNat _ (fun fin bs => exec_u64 t fin bs)]
  cases bs with
  | nil => simp [varintDecode, ofDec]
  | cons b bs =>
    cases hd : varintDecode 64 (b :: bs) with
    | none => simp [ofDec]
    | some vr =>
      obtain ⟨n, r⟩ := vr
      have := (varintDecode_bound 64 (by simp) b bs r n hd).1
      simp only [ofDec, Outcome.ok.injEq, Prod.mk.injEq, Val.u64.injEq, Option.some.injEq]
      rw [← UInt64.toNat_inj, UInt64.toNat_ofNat', Nat.mod_eq_of_lt this]

theorem C06_value_u16 (t : Target) (bs rest : List UInt8) (v : UInt16) :
    Prog.run t (de t .u16) bs = .ok (.u16 v, rest) ↔ varintDecode 16 bs = some (v.toNat, rest) := by
  rw [de, deU16, Prog.run, exec_zig t _ 16 UInt16.ofNat _ (fun fin bs => exec_u16 t fin bs)]
  cases bs with
  | nil => simp [varintDecode, ofDec]
  | cons b bs =>
    cases hd : varintDecode 16 (b :: bs) with
    | none => simp [ofDec]
    | some vr =>
      obtain ⟨n, r⟩ := vr
      have := (varintDecode_bound 16 (by simp) b bs r n hd).1
      simp only [ofDec, Outcome.ok.injEq, Prod.mk.injEq, Val.u16.injEq, Option.some.injEq]
      rw [← UInt16.toNat_inj, UInt16.toNat_ofNat', Nat.mod_eq_of_lt this]
theorem C06_value_u32 (t : Target) (bs rest : List UInt8) (v : UInt32) :
    Prog.run t (de t .u32) bs = .ok (.u32 v, rest) ↔ varintDecode 32 bs = some (v.toNat, rest) := by
  rw [de, deU32, Prog.run, exec_zig t _ 32 UInt32.ofNat _ (fun fin bs => exec_u32 t fin bs)]
  cases bs with
  | nil => simp [varintDecode, ofDec]
  | cons b bs =>
    cases hd : varintDecode 32 (b :: bs) with
    | none => simp [ofDec]
    | some vr =>
      obtain ⟨n, r⟩ := vr
      have := (varintDecode_bound 32 (by simp) b bs r n hd).1
      simp only [ofDec, Outcome.ok.injEq, Prod.mk.injEq, Val.u32.injEq, Option.some.injEq]
      rw [← UInt32.toNat_inj, UInt32.toNat_ofNat', Nat.mod_eq_of_lt this]
/-- For signed types the form denotes the zigzag image of the value. -/
theorem C06_value_i16 (t : Target) (bs rest : List UInt8) (v : Int16) :
    Prog.run t (de t .i16) bs = .ok (.i16 v, rest) ↔
      varintDecode 16 bs = some (zigzag v.toInt, rest) := by
  rw [de, deI16, Prog.run, exec_zig t _ 16 _ _
    (exec_zig t _ 16 UInt16.ofNat _ (fun fin bs => exec_u16 t fin bs))]
  cases bs with
  | nil => simp [varintDecode, ofDec]
  | cons b bs =>
    cases hd : varintDecode 16 (b :: bs) with
    | none => simp [ofDec]
    | some vr =>
      obtain ⟨n, r⟩ := vr
      have := (varintDecode_bound 16 (by simp) b bs r n hd).1
      simp only [ofDec, Outcome.ok.injEq, Prod.mk.injEq, Val.i16.injEq, Option.some.injEq]
      rw [← ZigZag.encodeI16_spec]
      refine and_congr_left fun _ => ⟨fun h => ?_, fun h => ?_⟩
      · rw [← h, ZigZag.encode_decodeI16, UInt16.toNat_ofNat', Nat.mod_eq_of_lt this]
      · rw [h, UInt16.ofNat_toNat, ZigZag.decode_encodeI16]
theorem C06_value_i32 (t : Target) (bs rest : List UInt8) (v : Int32) :
    Prog.run t (de t .i32) bs = .ok (.i32 v, rest) ↔
      varintDecode 32 bs = some (zigzag v.toInt, rest) := by
  rw [de, deI32, Prog.run, exec_zig t _ 32 _ _
    (exec_zig t _ 32 UInt32.ofNat _ (fun fin bs => exec_u32 t fin bs))]
  cases bs with
  | nil => simp [varintDecode, ofDec]
  | cons b bs =>
    cases hd : varintDecode 32 (b :: bs) with
    | none => simp [ofDec]
    | some vr =>
      obtain ⟨n, r⟩ := vr
      have := (varintDecode_bound 32 (by simp) b bs r n hd).1
      simp only [ofDec, Outcome.ok.injEq, Prod.mk.injEq, Val.i32.injEq, Option.some.injEq]
      rw [← ZigZag.encodeI32_spec]
      refine and_congr_left fun _ => ⟨fun h => ?_, fun h => ?_⟩
      · rw [← h, ZigZag.encode_decodeI32, UInt32.toNat_ofNat', Nat.mod_eq_of_lt this]
      · rw [h, UInt32.ofNat_toNat, ZigZag.decode_encodeI32]
theorem C06_value_i64 (t : Target) (bs rest : List UInt8) (v : Int64) :
    Prog.run t (de t .i64) bs = .ok (.i64 v, rest) ↔
      varintDecode 64 bs = some (zigzag v.toInt, rest) := by
  rw [de, deI64, Prog.run, exec_zig t _ 64 _ _
    (exec_zig t _ 64 UInt64.ofNat _ (fun fin bs => exec_u64 t fin bs))]
  cases bs with
  | nil => simp [varintDecode, ofDec]
  | cons b bs =>
    cases hd : varintDecode 64 (b :: bs) with
    | none => simp [ofDec]
    | some vr =>
      obtain ⟨n, r⟩ := vr
      have := (varintDecode_bound 64 (by simp) b bs r n hd).1
      simp only [ofDec, Outcome.ok.injEq, Prod.mk.injEq, Val.i64.injEq, Option.some.injEq]
      rw [← ZigZag.encodeI64_spec]
      refine and_congr_left fun _ => ⟨fun h => ?_, fun h => ?_⟩
      · rw [← h, ZigZag.encode_decodeI64, UInt64.toNat_ofNat', Nat.mod_eq_of_lt this]
      · rw [h, UInt64.ofNat_toNat, ZigZag.decode_encodeI64]

/-- A redundant form: three bytes that denote 5 as `u16`, and -3 as `i16`. -/
example : varintDecode 16 [0xc0, 5, 0, 9] = some ((5 : UInt16).toNat, [9]) ∧
    varintDecode 16 [0xc0, 5, 0, 9] = some (zigzag (-3 : Int16).toInt, [9]) := by decide +kernel

example : extraBytes 64 0xff = 8 ∧ extraBytes 16 0xff = 2 ∧ extraBytes 32 0x7f = 0 := by
  decide +kernel

end Dlhn.Props
