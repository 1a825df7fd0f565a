import Verif.Proof.NoTextAll
import Verif.Proof.SerGen
import Verif.Spec.Names
/-!
# C07-C23: the serde data model

`Spec.Supported` and `Spec.Has` (Spec/Wire.lean) say which types are supported
and which values a type has.
-/
namespace Dlhn.Props

open Spec De

/-! ## A sample type and value, used to show that hypotheses are met -/

/-- `struct S { a: Vec<Option<i32>>, b: BTreeMap<String, u64>, c: E }` with
`enum E { A, B(char), C { x: f64, y: (String, ()) } }`. -/
def sampleTy : Ty := .struct "S" [
  ("a", .seq (.option .i32)),
  ("b", .map .string .u64),
  ("c", .enum "E" [("A", .unit), ("B", .newtype .char),
    ("C", .struct [("x", .f64), ("y", .tuple [.string, .unit])])])]

/-- A value of it. -/
def sampleVal : Val := .struct "S" [
  ("a", .seq (some 2) [.some (.i32 (-3)), .none]),
  ("b", .map (some 1) [(.str "k", .u64 7)]),
  ("c", .structVariant "E" 2 "C" [("x", .f64 5), ("y", .tuple [.str "hi", .unit])])]

theorem sampleTy_supported : Supported sampleTy := by
  simp [sampleTy, Supported, FieldsSupported, VariantsSupported, PayloadSupported, AllSupported]

theorem sampleVal_has (t : Target) : Has t sampleTy sampleVal := by
  have h : ∀ n : Nat, n < 2 ^ 32 → n < 2 ^ t.ptr.bits := fun n hn => by
    cases t.ptr
    · exact hn
    · exact Nat.lt_trans hn (by decide)
  refine ⟨_, rfl, _, _, rfl, ⟨[.some (.i32 (-3)), .none], rfl, h _ (by decide), ?_⟩, _, _, rfl,
    ⟨[(.str "k", .u64 7)], rfl, h _ (by decide), ?_⟩, _, _, rfl, ?_, rfl⟩
  · simp [Has]
  · simp only [List.mem_singleton, forall_eq]
    exact ⟨⟨_, rfl, h _ (by decide)⟩, ⟨_, rfl⟩⟩
  · exact .inr (.inr (.inl ⟨_, rfl, _, _, rfl, ⟨_, rfl⟩, _, _, rfl,
      ⟨_, rfl, _, _, rfl, ⟨_, rfl, h _ (by decide)⟩, _, _, rfl, rfl, rfl⟩, rfl⟩))

/-! ## C07 typed round-trip -/

/-- Every value of every supported type serializes, and deserializing the bytes
followed by anything returns the value and leaves what follows. -/
theorem C07_roundtrip (t : Target) (hm : 4096 ≤ t.memLimit) (ty : Ty) (hs : Supported ty) (v : Val)
    (hv : Has t ty v) : ∃ enc, Ser.toVec v = (enc, .ok ()) ∧
      ∀ rest, Prog.run t (de t ty) (enc ++ rest) = .ok (v, rest) := by
  obtain ⟨h1, h2⟩ := has_ok t ty hs v hv
  exact ⟨wire v, Ser.exec_ser v h1 h2, fun rest => de_wire t hm ty hs v hv .eof rest⟩

example (t : Target) (hm : 4096 ≤ t.memLimit) : ∃ enc, Ser.toVec sampleVal = (enc, .ok ()) ∧
    ∀ rest, Prog.run t (de t sampleTy) (enc ++ rest) = .ok (sampleVal, rest) :=
  C07_roundtrip t hm _ sampleTy_supported _ (sampleVal_has t)

example : (Ser.toVec sampleVal).1 =
    [2, 1, 5, 0, 1, 1, 107, 7, 2, 5, 0, 0, 0, 0, 0, 0, 0, 2, 104, 105] := by decide +kernel

/-! ## C08 prefix-free -/

theorem C08_prefix_free (t : Target) (hm : 4096 ≤ t.memLimit) (ty : Ty) (hs : Supported ty)
    (v w : Val) (hv : Has t ty v) (hw : Has t ty w) (hne : v ≠ w) :
    ¬ (Ser.toVec v).1 <+: (Ser.toVec w).1 := by
  obtain ⟨ev, h1, h2⟩ := C07_roundtrip t hm ty hs v hv
  obtain ⟨ew, h3, h4⟩ := C07_roundtrip t hm ty hs w hw
  rw [h1, h3]
  rintro ⟨r, hr⟩
  have a := h2 r
  have b := h4 []
  simp only at hr
  rw [hr] at a
  rw [List.append_nil, a] at b
  simp only [Outcome.ok.injEq, Prod.mk.injEq] at b
  exact hne b.1

theorem C08_injective (t : Target) (hm : 4096 ≤ t.memLimit) (ty : Ty) (hs : Supported ty)
    (v w : Val) (hv : Has t ty v) (hw : Has t ty w)
    (h : (Ser.toVec v).1 = (Ser.toVec w).1) : v = w := by
  cases Classical.em (v = w) with
  | inl h' => exact h'
  | inr h' => exact absurd (h ▸ List.prefix_refl _) (C08_prefix_free t hm ty hs v w hv hw h')

/-- `vec![1u8]` and `vec![1u8, 1]`: the length prefix keeps them apart. -/
example : (Ser.toVec (.seq (some 1) [.u8 1])).1 = [1, 1] ∧
    (Ser.toVec (.seq (some 2) [.u8 1, .u8 1])).1 = [2, 1, 1] := by decide +kernel

/-! ## C09 streams -/

/-- Serialize values one after another into one writer. -/
def writeStream : List Val → WProg SerErr
  | [] => .skip
  | v :: vs => (Ser.ser v).andThen (writeStream vs)

/-- Deserialize values one after another from one reader. -/
def readStream (t : Target) : List Ty → List UInt8 → Outcome DeErr (List Val × List UInt8)
  | [], bs => .ok ([], bs)
  | ty :: tys, bs =>
    match Prog.run t (de t ty) bs with
    | .ok (v, rest) => (readStream t tys rest).map fun (vs, r) => (v :: vs, r)
    | .err e => .err e
    | .panic q => .panic q

theorem C09_stream (t : Target) (hm : 4096 ≤ t.memLimit) (items : List (Ty × Val))
    (h : ∀ x ∈ items, Supported x.1 ∧ Has t x.1 x.2) :
    ∃ enc, (writeStream (items.map (·.2))).exec = (enc, .ok ()) ∧
      ∀ rest, readStream t (items.map (·.1)) (enc ++ rest) = .ok (items.map (·.2), rest) := by
  induction items with
  | nil => exact ⟨[], rfl, fun rest => rfl⟩
  | cons x items ih =>
    obtain ⟨h1, h2⟩ := h x List.mem_cons_self
    obtain ⟨e1, a1, a2⟩ := C07_roundtrip t hm x.1 h1 x.2 h2
    obtain ⟨e2, b1, b2⟩ := ih fun y hy => h y (List.mem_cons_of_mem _ hy)
    refine ⟨e1 ++ e2, ?_, fun rest => ?_⟩
    · simp only [List.map_cons, writeStream]
      rw [WProg.exec_andThen_ok a1, b1]
    · simp only [List.map_cons, readStream]
      rw [List.append_assoc, a2]
      simp only
      rw [b2]
      rfl

example (t : Target) : ∀ x ∈ [(sampleTy, sampleVal), (Ty.unit, Val.unit), (Ty.bool, Val.bool true)],
    Supported x.1 ∧ Has t x.1 x.2 := by
  intro x hx
  simp only [List.mem_cons, List.not_mem_nil, or_false] at hx
  rcases hx with rfl | rfl | rfl
  · exact ⟨sampleTy_supported, sampleVal_has t⟩
  · simp [Supported, Has]
  · simp [Supported, Has]

/-! ## C10 truncation, C11 locality -/

/-- On 64-bit targets, and on all targets for types without text: whatever decodes using all of the input, every strict
prefix is `Err(Read)`. For every type, supported or not. -/
theorem C10_truncation (t : Target) (ty : Ty)
    (ht : t.ptr = .w64 ∨ NoText ty) (bs : List UInt8) (v : Val)
    (h : Prog.run t (de t ty) bs = .ok (v, [])) (pre : List UInt8) (hpre : pre <+: bs)
    (hne : pre ≠ bs) : Prog.run t (de t ty) pre = .err .read := by
  obtain ⟨used, hb, -, hp⟩ := Prog.exec_split t .eof (strict_on ht) h
  rw [List.append_nil] at hb
  subst hb
  exact hp .eof pre hpre hne

/-- More generally: any prefix that ends within the consumed bytes. -/
theorem C10_truncation_in_stream (t : Target) (ty : Ty) (ht : t.ptr = .w64 ∨ NoText ty)
    (bs rest : List UInt8) (v : Val) (h : Prog.run t (de t ty) bs = .ok (v, rest)) (n : Nat)
    (hn : n + rest.length < bs.length) : Prog.run t (de t ty) (bs.take n) = .err .read := by
  obtain ⟨used, hb, -, hp⟩ := Prog.exec_split t .eof (strict_on ht) h
  subst hb
  rw [List.length_append] at hn
  refine hp .eof _ ?_ ?_
  · rw [List.take_append_of_le_length (by omega)]
    exact List.take_prefix _ _
  · intro h'
    have := congrArg List.length h'
    rw [List.length_take, List.length_append] at this
    omega

theorem C11_locality (t : Target) (ty : Ty)
    (ht : t.ptr = .w64 ∨ NoText ty) (bs rest : List UInt8) (v : Val)
    (h : Prog.run t (de t ty) bs = .ok (v, rest)) :
    ∃ used, bs = used ++ rest ∧ ∀ other, Prog.run t (de t ty) (used ++ other) = .ok (v, other) := by
  obtain ⟨used, hb, hs, -⟩ := Prog.exec_split t .eof (strict_on ht) h
  exact ⟨used, hb, fun other => hs .eof other⟩

/-- The hypotheses of C10 and C11 are met by the sample value, with or without
data after it. -/
example : Prog.run ⟨.w64, 4096⟩ (de ⟨.w64, 4096⟩ sampleTy)
    ([2, 1, 5, 0, 1, 1, 107, 7, 2, 5, 0, 0, 0, 0, 0, 0, 0, 2, 104, 105] ++ [1, 2, 3])
      = .ok (sampleVal, [1, 2, 3]) := by
  obtain ⟨enc, h1, h2⟩ := C07_roundtrip ⟨.w64, 4096⟩ (Nat.le_refl _) _ sampleTy_supported _
    (sampleVal_has ⟨.w64, 4096⟩)
  have h : (Ser.toVec sampleVal).1 =
    [2, 1, 5, 0, 1, 1, 107, 7, 2, 5, 0, 0, 0, 0, 0, 0, 0, 2, 104, 105] := by decide +kernel
  rw [← h, h1]
  exact h2 _

/-! ## C12 decoded values re-encode, no longer -/

/-- A decoded value re-serializes without error to at most as many bytes as were read,
and these decode to the same value. On 32-bit targets less than 2^32 bytes may be
read. -/
theorem C12_reencode (t : Target) (hm : 4096 ≤ t.memLimit) (ty : Ty)
    (hs : Supported ty) (bs rest : List UInt8) (v : Val)
    (hl : t.ptr = .w64 ∨ bs.length < rest.length + 2 ^ 32)
    (h : Prog.run t (de t ty) bs = .ok (v, rest)) :
    Has t ty v ∧ ∃ enc, Ser.toVec v = (enc, .ok ()) ∧ enc.length + rest.length ≤ bs.length ∧
      Prog.run t (de t ty) (enc ++ rest) = .ok (v, rest) := by
  obtain ⟨n, hn, hv, hle⟩ := yields_de t t ty hs _ _ _ _ h
  have hv := hv (.self (hl.imp_right fun hl => by omega))
  obtain ⟨h1, h2⟩ := has_ok t ty hs v hv
  exact ⟨hv, wire v, Ser.exec_ser v h1 h2, by omega, de_wire t hm ty hs v hv .eof rest⟩

/-- A length in a longer form than necessary is accepted, and re-encoded shorter. -/
example : varintDecode 64 [0xC0, 0, 0, 0x61] = some (0, [0x61]) ∧ varint 64 0 = [0] := by
  decide +kernel

/-! ## C13 no panic -/

/-- Decoding a type that never asks for `any`, `&str`, `&[u8]` or `ignored_any`
returns `Ok` or `Err` on every input, provided 4096 bytes can be allocated. -/
theorem C13_no_panic (t : Target) (hm : 4096 ≤ t.memLimit) (ty : Ty) (hd : Decodable ty)
    (bs : List UInt8) : (Prog.run t (de t ty) bs).returns :=
  (total_de hm ty hd).exec .eof bs

/-- The same on any reader, whatever chunks and failures it produces. -/
theorem C13_no_panic_reader (t : Target) (hm : 4096 ≤ t.memLimit) (ty : Ty) (hd : Decodable ty)
    (size : Nat → Nat) (s : Script) : (Prog.runScript t size (de t ty) s).returns :=
  (total_de hm ty hd).runScript size s

mutual
/-- Supported types are decodable. -/
theorem supported_decodable : (ty : Ty) → Supported ty → Decodable ty
  | .option ty, h => supported_decodable ty h
  | .newtypeStruct _ ty, h => supported_decodable ty h
  | .seq ty, h => supported_decodable ty h
  | .tuple ts, h => allSupported_decodable ts h
  | .tupleStruct _ ts, h => allSupported_decodable ts h
  | .map kt vt, h => by
    simp only [Supported] at h
    simp only [Decodable]
    exact ⟨by rw [h.1]; trivial, supported_decodable vt h.2⟩
  | .struct _ fs, h => fieldsSupported_decodable fs h
  | .enum _ vs, h => variantsSupported_decodable vs h.2
  | .bool, _ => trivial
  | .i8, _ => trivial
  | .i16, _ => trivial
  | .i32, _ => trivial
  | .i64, _ => trivial
  | .u8, _ => trivial
  | .u16, _ => trivial
  | .u32, _ => trivial
  | .u64, _ => trivial
  | .f32, _ => trivial
  | .f64, _ => trivial
  | .char, _ => trivial
  | .string, _ => trivial
  | .byteBuf, _ => trivial
  | .unit, _ => trivial
  | .unitStruct _, _ => trivial
theorem allSupported_decodable : (ts : List Ty) → AllSupported ts → AllDecodable ts
  | [], _ => trivial
  | ty :: ts, h => ⟨supported_decodable ty h.1, allSupported_decodable ts h.2⟩
theorem fieldsSupported_decodable : (fs : List (String × Ty)) → FieldsSupported fs →
    FieldsDecodable fs
  | [], _ => trivial
  | (_, ty) :: fs, h => ⟨supported_decodable ty h.1, fieldsSupported_decodable fs h.2⟩
theorem variantsSupported_decodable : (vs : List (String × VTy)) → VariantsSupported vs →
    VariantsDecodable vs
  | [], _ => trivial
  | (_, vt) :: vs, h => ⟨payloadSupported_decodable vt h.1, variantsSupported_decodable vs h.2⟩
theorem payloadSupported_decodable : (vt : VTy) → PayloadSupported vt → PayloadDecodable vt
  | .unit, _ => trivial
  | .newtype ty, h => supported_decodable ty h
  | .tuple ts, h => allSupported_decodable ts h
  | .struct fs, h => fieldsSupported_decodable fs h
end

theorem C13_no_panic_supported (t : Target) (hm : 4096 ≤ t.memLimit) (ty : Ty) (hs : Supported ty)
    (bs : List UInt8) : (Prog.run t (de t ty) bs).returns :=
  C13_no_panic t hm ty (supported_decodable ty hs) bs

/-- Serializing never panics either, whatever the value and the writer. -/
theorem C13_ser_no_panic (v : Val) (s : WScript) : ((Ser.ser v).runScript s).2.returns :=
  (Ser.good_ser v).runScript s

example (t : Target) (hm : 4096 ≤ t.memLimit) (bs : List UInt8) :
    (Prog.run t (de t sampleTy) bs).returns :=
  C13_no_panic_supported t hm _ sampleTy_supported bs

/-! ## C14 unsupported requests -/

/-- The decoder panics before its first call on the reader. -/
theorem C14_todo (t : Target) (ty : Ty) (h : ty ∈ [Ty.any, .str, .bytes, .ignoredAny]) :
    de t ty = .done (.panic .todo) := by
  simp only [List.mem_cons, List.not_mem_nil, or_false] at h
  rcases h with rfl | rfl | rfl | rfl <;> rw [de]

theorem C14_todo_run (t : Target) (ty : Ty) (h : ty ∈ [Ty.any, .str, .bytes, .ignoredAny])
    (bs : List UInt8) : Prog.run t (de t ty) bs = .panic .todo := by
  rw [C14_todo t ty h]; rfl

/-- 128-bit integers are errors on both sides, wherever they occur. -/
theorem C14_128_de (t : Target) (ty : Ty) (h : ty = .i128 ∨ ty = .u128) (bs : List UInt8) :
    ∃ m, Prog.run t (de t ty) bs = .err (.message m) := by
  rcases h with rfl | rfl <;> rw [de] <;> exact ⟨_, rfl⟩

theorem C14_128_ser (v : Val) (h : (∃ x, v = .i128 x) ∨ ∃ x, v = .u128 x) :
    ∃ m, Ser.toVec v = ([], .err (.message m)) := by
  rcases h with ⟨x, rfl⟩ | ⟨x, rfl⟩ <;> exact ⟨_, rfl⟩

/-- Serialization succeeds exactly for values without 128-bit integers whose map
keys are plain strings; in particular a 128-bit integer deep inside is never
dropped silently. -/
theorem C14_ser_ok_iff (v : Val) : (Ser.toVec v).2 = .ok () ↔ Serializable v := Ser.ser_ok_iff v

example : ¬ Serializable (.tuple [.u8 1, .some (.u128 5)]) := by
  simp [Serializable, AllSerializable]

/-! ## C15 tags -/

theorem C15_bool (t : Target) (b : UInt8) (rest : List UInt8) :
    Prog.run t (de t .bool) (b :: rest) =
      if b = 0 then .ok (.bool false, rest)
      else if b = 1 then .ok (.bool true, rest)
      else .err .read := by
  rw [de, Prog.run, exec_map, deBool, Prog.bind_eq, Prog.exec_bind, exec_readBytes,
    dif_pos (by simp), Prog.next_ok]
  have h0 : (takeVec (n := 1) (b :: rest) (by simp))[0] = b := rfl
  rw [h0]
  by_cases h : b = 0
  · subst h; rfl
  · by_cases h1 : b = 1
    · subst h1; rfl
    · rw [if_neg h, if_neg h1]
      have e0 : b.toNat ≠ 0 := fun h' => h (UInt8.toNat_inj.mp h')
      have e1 : b.toNat ≠ 1 := fun h' => h1 (UInt8.toNat_inj.mp h')
      split
      · contradiction
      · contradiction
      · rfl

theorem C15_option (t : Target) (ty : Ty) (b : UInt8) (rest : List UInt8) :
    Prog.run t (de t (.option ty)) (b :: rest) =
      if b = 0 then .ok (.none, rest)
      else if b = 1 then (Prog.run t (de t ty) rest).map fun (v, r) => (.some v, r)
      else .err .read := by
  have h := C15_bool t b rest
  rw [de, Prog.run, exec_map] at h
  rw [de, Prog.run, Prog.bind_eq, Prog.exec_bind]
  by_cases h0 : b = 0
  · rw [if_pos h0] at h ⊢
    cases hx : Prog.exec t .eof deBool (b :: rest) with
    | ok a =>
      obtain ⟨x, r⟩ := a
      rw [hx] at h
      simp only [Outcome.map, Outcome.ok.injEq, Prod.mk.injEq, Val.bool.injEq] at h
      rw [h.1, h.2]
      rfl
    | err e => rw [hx] at h; simp [Outcome.map] at h
    | panic q => rw [hx] at h; simp [Outcome.map] at h
  · rw [if_neg h0] at h ⊢
    by_cases h1 : b = 1
    · rw [if_pos h1] at h ⊢
      cases hx : Prog.exec t .eof deBool (b :: rest) with
      | ok a =>
        obtain ⟨x, r⟩ := a
        rw [hx] at h
        simp only [Outcome.map, Outcome.ok.injEq, Prod.mk.injEq, Val.bool.injEq] at h
        rw [h.1, h.2, Prog.next_ok]
        exact exec_map t .eof (de t ty) Val.some rest
      | err e => rw [hx] at h; simp [Outcome.map] at h
      | panic q => rw [hx] at h; simp [Outcome.map] at h
    · rw [if_neg h1] at h ⊢
      cases hx : Prog.exec t .eof deBool (b :: rest) with
      | ok a => rw [hx] at h; simp [Outcome.map] at h
      | err e =>
        rw [hx] at h
        simp only [Outcome.map, Outcome.err.injEq] at h
        rw [h]; rfl
      | panic q => rw [hx] at h; simp [Outcome.map] at h

example (t : Target) (rest : List UInt8) : Prog.run t (de t .bool) (2 :: rest) = .err .read := by
  rw [C15_bool]; rfl

/-! ## C16 strings, C17 byte buffers -/

/-- Exactly: a length in any accepted form, then that many bytes of UTF-8. -/
theorem C16_string (t : Target) (ht : t.ptr = .w64) (bs rest : List UInt8) (s : String) :
    Prog.run t (de t .string) bs = .ok (.str s, rest) ↔
      varintDecode 64 bs = some ((utf8 s).length, utf8 s ++ rest) := by
  rw [de, Prog.run, exec_map, exec_deString ht]
  cases hd : varintDecode 64 bs with
  | none => simp [Outcome.map]
  | some vr =>
    obtain ⟨n, body⟩ := vr
    simp only
    constructor
    · intro h
      split at h
      · rename_i hle
        split at h
        · rename_i s' hs'
          simp only [Outcome.map, Outcome.ok.injEq, Prod.mk.injEq, Val.str.injEq] at h
          obtain ⟨rfl, rfl⟩ := h
          have := utf8_of_fromUtf8 hs'
          rw [this, List.take_append_drop, List.length_take, Nat.min_eq_left hle]
        · simp [Outcome.map] at h
      · simp [Outcome.map] at h
    · intro h
      simp only [Option.some.injEq, Prod.mk.injEq] at h
      obtain ⟨rfl, rfl⟩ := h
      rw [if_pos (by simp), List.take_left', fromUtf8_utf8, List.drop_left'] <;> rfl

/-- In every other case the result is `Err(Read)`. -/
theorem C16_string_err (t : Target) (ht : t.ptr = .w64) (bs : List UInt8)
    (h : ¬ ∃ s rest, varintDecode 64 bs = some ((utf8 s).length, utf8 s ++ rest)) :
    Prog.run t (de t .string) bs = .err .read := by
  have key : ∀ v r, Prog.run t (de t .string) bs ≠ .ok (v, r) := by
    intro v r hx
    have hx' := hx
    rw [de, Prog.run, exec_map] at hx
    cases hy : Prog.exec t .eof (deString t) bs with
    | ok a =>
      rw [hy] at hx
      simp only [Outcome.map, Outcome.ok.injEq, Prod.mk.injEq] at hx
      obtain ⟨rfl, rfl⟩ := hx
      exact h ⟨_, _, (C16_string t ht bs _ _).mp hx'⟩
    | err e => rw [hy] at hx; simp [Outcome.map] at hx
    | panic q => rw [hy] at hx; simp [Outcome.map] at hx
  rw [de, Prog.run, exec_map, exec_deString ht] at key ⊢
  revert key
  cases varintDecode 64 bs with
  | none => intro _; rfl
  | some vr =>
    obtain ⟨n, body⟩ := vr
    simp only
    split
    · split
      · intro key; exact absurd rfl (key _ _)
      · intro _; rfl
    · intro _; rfl

example : ¬ ∃ s rest, varintDecode 64 [2, 0xff, 0xfe] = some ((utf8 s).length, utf8 s ++ rest) := by
  rintro ⟨s, rest, h⟩
  have hd : varintDecode 64 [2, 0xff, 0xfe] = some (2, [0xff, 0xfe]) := by decide +kernel
  rw [hd] at h
  simp only [Option.some.injEq, Prod.mk.injEq] at h
  have hl : rest = [] := by
    have := congrArg List.length h.2
    simp at this
    exact List.eq_nil_of_length_eq_zero (by omega)
  have hu := fromUtf8_utf8 s
  rw [hl, List.append_nil] at h
  rw [← h.2] at hu
  revert hu
  have : fromUtf8 [0xff, 0xfe] = none := by decide +kernel
  simp [this]

theorem C17_byteBuf (t : Target) (ht : t.ptr = .w64) (hm : 4096 ≤ t.memLimit)
    (bs rest b : List UInt8) :
    Prog.run t (de t .byteBuf) bs = .ok (.bytes b, rest) ↔
      varintDecode 64 bs = some (b.length, b ++ rest) := by
  rw [de, Prog.run, exec_map, exec_deByteBuf ht hm]
  cases hd : varintDecode 64 bs with
  | none => simp [Outcome.map]
  | some vr =>
    obtain ⟨n, body⟩ := vr
    simp only
    constructor
    · intro h
      split at h
      · rename_i hle
        simp only [Outcome.map, Outcome.ok.injEq, Prod.mk.injEq, Val.bytes.injEq] at h
        obtain ⟨rfl, rfl⟩ := h
        rw [List.take_append_drop, List.length_take, Nat.min_eq_left hle]
      · simp [Outcome.map] at h
    · intro h
      simp only [Option.some.injEq, Prod.mk.injEq] at h
      obtain ⟨rfl, rfl⟩ := h
      rw [if_pos (by simp), List.take_left', List.drop_left'] <;> rfl

theorem C17_byteBuf_err (t : Target) (ht : t.ptr = .w64) (hm : 4096 ≤ t.memLimit)
    (bs : List UInt8) (h : ¬ ∃ b rest, varintDecode 64 bs = some (b.length, b ++ rest)) :
    Prog.run t (de t .byteBuf) bs = .err .read := by
  rw [de, Prog.run, exec_map, exec_deByteBuf ht hm]
  cases hd : varintDecode 64 bs with
  | none => rfl
  | some vr =>
    obtain ⟨n, body⟩ := vr
    simp only
    split
    · rename_i hle
      exact absurd ⟨body.take n, body.drop n, by
        rw [hd, List.take_append_drop, List.length_take, Nat.min_eq_left hle]⟩ h
    · rfl

/-- A buffer longer than one 4096-byte chunk meets the right-hand side. -/
example : ∃ bs, varintDecode 64 bs = some ((List.replicate 5000 (7 : UInt8)).length,
    List.replicate 5000 7 ++ []) :=
  ⟨varint 64 5000 ++ (List.replicate 5000 7 ++ []), by
    rw [List.length_replicate]; exact varintDecode_varint 64 5000 (by simp) (by decide) _⟩

/-! ## C18 char -/

theorem C18_char (t : Target) (c : Char) : ∃ enc, Ser.toVec (.char c) = (enc, .ok ()) ∧
    ∀ rest, Prog.run t (de t .char) (enc ++ rest) = .ok (.char c, rest) := by
  refine ⟨_, Ser.exec_ser (.char c) trivial trivial, fun rest => ?_⟩
  rw [wire, de]
  exact exec_wrap t _ _ _ _ _ _ (deChar_wire t _ c rest)

/-- Reading a char where a string was written. -/
theorem C18_char_of_string (t : Target) (s : String) (hs : (utf8 s).length < 2 ^ t.ptr.bits)
    (rest : List UInt8) : Prog.run t (de t .char) ((Ser.toVec (.str s)).1 ++ rest) =
      match s.toList with
      | [] => .err .charSize
      | c :: _ => .ok (.char c, rest) := by
  have h64 := lt_64_of_lt_bits hs
  have : (Ser.toVec (.str s)).1 = block (utf8 s) := by
    rw [Ser.toVec, Ser.ser, Ser.exec_serStr s h64]
  rw [this, de, Prog.run, exec_map, deChar, Prog.bind_eq, Prog.exec_bind,
    deString_block t _ s hs, Prog.next_ok]
  cases s.toList <;> rfl

example (t : Target) : (utf8 "héllo").length < 2 ^ t.ptr.bits := by cases t.ptr <;> decide
example (t : Target) : Prog.run t (de t .char) ((Ser.toVec (.str "")).1 ++ []) = .err .charSize :=
  C18_char_of_string t "" (by cases t.ptr <;> decide) []

/-! ## C19 map keys -/

/-- A map serializes exactly when every key is a plain string and every value
serializes. -/
theorem C19_map_ok_iff (h : Option Nat) (es : List (Val × Val)) :
    (Ser.toVec (.map h es)).2 = .ok () ↔
      ∀ e ∈ es, (∃ s, e.1 = .str s) ∧ (Ser.toVec e.2).2 = .ok () := by
  have hk : ∀ k : Val, IsKey k ↔ ∃ s, k = .str s := by
    intro k; cases k <;> simp [IsKey]
  rw [C14_ser_ok_iff, Serializable, entriesSerializable_iff]
  simp only [C14_ser_ok_iff, hk]

private theorem bad_key (h : Option Nat) (good : List (Val × Val)) (k v : Val)
    (rest : List (Val × Val)) (err : SerErr)
    (hgood : ∀ e ∈ good, (∃ s, e.1 = .str s) ∧ (Ser.toVec e.2).2 = .ok ())
    (hbad : (Ser.serKey k).exec = ([], .err err)) :
    (Ser.toVec (.map h (good ++ (k, v) :: rest))).2 = .err err := by
  have hes : (Ser.serEntries (good ++ (k, v) :: rest)).exec.2 = .err err := by
    induction good with
    | nil =>
      simp only [List.nil_append, Ser.serEntries]
      rw [WProg.exec_andThen, hbad]
    | cons e good ih =>
      obtain ⟨k', v'⟩ := e
      obtain ⟨⟨s, hs⟩, hv⟩ := hgood (k', v') List.mem_cons_self
      simp only at hs hv
      simp only [List.cons_append, Ser.serEntries]
      have a : (Ser.serKey k').exec = ((Ser.serKey k').exec.1, .ok ()) := by
        rw [← (Ser.serKey_ok_iff k').mpr (by rw [hs]; trivial)]
      have b : (Ser.ser v').exec = ((Ser.ser v').exec.1, .ok ()) := by rw [← hv]; rfl
      rw [WProg.exec_andThen_ok a, WProg.exec_andThen_ok b]
      exact ih fun x hx => hgood x (List.mem_cons_of_mem _ hx)
  rw [Ser.toVec, Ser.ser]
  have a : (Ser.serHint h).exec = ((Ser.serHint h).exec.1, .ok ()) := by
    rw [← Ser.serHint_ok h]
  rw [WProg.exec_andThen_ok a]
  exact hes

/-- The first key that is not a plain string decides the error. -/
theorem C19_first_bad_key (h : Option Nat) (good : List (Val × Val)) (k v : Val)
    (rest : List (Val × Val))
    (hgood : ∀ e ∈ good, (∃ s, e.1 = .str s) ∧ (Ser.toVec e.2).2 = .ok ())
    (hk : ∀ s, k ≠ .str s) (h128 : (∀ x, k ≠ .i128 x) ∧ ∀ x, k ≠ .u128 x) :
    (Ser.toVec (.map h (good ++ (k, v) :: rest))).2 = .err .unsupportedKeyType :=
  bad_key h good k v rest _ hgood (by
    cases k <;> first | rfl | (exfalso; first | exact hk _ rfl | exact h128.1 _ rfl | exact h128.2 _ rfl))

/-- Keys of 128 bits give the error they give everywhere else. -/
theorem C19_key_128 (h : Option Nat) (good : List (Val × Val)) (k v : Val)
    (rest : List (Val × Val))
    (hgood : ∀ e ∈ good, (∃ s, e.1 = .str s) ∧ (Ser.toVec e.2).2 = .ok ())
    (hk : (∃ x, k = .i128 x) ∨ ∃ x, k = .u128 x) :
    (Ser.toVec (.map h (good ++ (k, v) :: rest))).2 = (Ser.toVec k).2 ∧
      ∃ m, (Ser.toVec k).2 = .err (.message m) := by
  rcases hk with ⟨x, rfl⟩ | ⟨x, rfl⟩
  · exact ⟨bad_key h good _ v rest _ hgood rfl, _, rfl⟩
  · exact ⟨bad_key h good _ v rest _ hgood rfl, _, rfl⟩

theorem C19_empty (h : Option Nat) : (Ser.toVec (.map h [])).2 = .ok () :=
  (C19_map_ok_iff h []).mpr (by simp)

example : (Ser.toVec (.map (some 2) [(.str "a", .u8 1), (.u8 2, .u8 3)])).2
    = .err .unsupportedKeyType := by decide +kernel
/-- A newtype around a string is rejected, although the wire format would be the
same. -/
example : (Ser.toVec (.map (some 1) [(.newtypeStruct "Id" (.str "a"), .u8 1)])).2
    = .err .unsupportedKeyType := by decide +kernel

/-! ## C20 sequences of undeclared length -/

theorem C20_seq_undeclared (vs : List Val) (h : AllSerializable vs) (hf : AllFit vs) :
    Ser.toVec (.seq none vs) = ((vs.map fun v => (Ser.toVec v).1).flatten, .ok ()) := by
  rw [Ser.toVec, Ser.exec_ser (.seq none vs) h ⟨by simp, hf⟩, wire, wireAll_eq, lengthPrefix,
    List.nil_append]
  congr 2
  refine List.map_congr_left fun v hv => ?_
  rw [Ser.toVec, Ser.exec_ser v ((allSerializable_iff vs).mp h v hv) ((allFit_iff vs).mp hf v hv)]

theorem C20_seq_declared (n : Nat) (hn : n < 2 ^ 64) (vs : List Val) (h : AllSerializable vs)
    (hf : AllFit vs) : Ser.toVec (.seq (some n) vs)
      = (varint 64 n ++ (vs.map fun v => (Ser.toVec v).1).flatten, .ok ()) := by
  rw [Ser.toVec, Ser.exec_ser (.seq (some n) vs) h ⟨by simpa using hn, hf⟩, wire, wireAll_eq,
    lengthPrefix]
  congr 3
  refine List.map_congr_left fun v hv => ?_
  rw [Ser.toVec, Ser.exec_ser v ((allSerializable_iff vs).mp h v hv) ((allFit_iff vs).mp hf v hv)]

theorem C20_map_undeclared (es : List (Val × Val)) (h : EntriesSerializable es)
    (hf : EntriesFit es) : Ser.toVec (.map none es)
      = ((es.map fun e => (Ser.toVec e.1).1 ++ (Ser.toVec e.2).1).flatten, .ok ()) := by
  rw [Ser.toVec, Ser.exec_ser (.map none es) h ⟨by simp, hf⟩, wire, wireEntries_eq, lengthPrefix,
    List.nil_append]
  congr 2
  refine List.map_congr_left fun e he => ?_
  have h1 := (entriesSerializable_iff es).mp h e he
  have h2 := (entriesFit_iff es).mp hf e he
  have hk : Serializable e.1 := by
    cases hx : e.1 <;> simp_all [IsKey, Serializable]
  rw [Ser.toVec, Ser.exec_ser e.1 hk h2.1, Ser.toVec, Ser.exec_ser e.2 h1.2 h2.2]

/-- The sequence 1, 2, written without a declared length, is read back as the
sequence 2. -/
theorem C20_not_self_delimiting (t : Target) :
    Ser.toVec (.seq none [.u8 1, .u8 2]) = ([1, 2], .ok ()) ∧
    Prog.run t (de t (.seq .u8)) [1, 2] = .ok (.seq (some 1) [.u8 2], []) := by
  refine ⟨by decide +kernel, ?_⟩
  have h : [1, 2] = varint 64 1 ++ [(2 : UInt8)] := by decide +kernel
  have hu : t.asUsize (UInt64.ofNat 1) = 1 :=
    asUsize_ofNat (by cases t.ptr <;> decide)
  have h2 : Prog.exec t .eof (de t .u8) [2] = .ok (.u8 2, []) := by
    rw [de]; exact exec_wrap t _ _ _ _ _ _ (deU8_wire t _ 2 [])
  rw [de, Prog.run, Prog.bind_eq, Prog.exec_bind, h, exec_u64_varint t _ 1 (by decide), Prog.next_ok,
    hu, exec_map, times, Prog.bind_eq, Prog.exec_bind, h2]
  rfl

/-! ## C21 enum variant indices -/

/-- What the deserializer makes of a serialized variant index: the same index
exactly below 2^14. -/
theorem C21_index (t : Target) (i : UInt32) (rest : List UInt8) (name vn : String) :
    (∃ j r, Prog.run t (io PrefixVarint.decodeU16)
        ((Ser.toVec (.unitVariant name i vn)).1 ++ rest) = .ok (j, r) ∧ j.toNat = i.toNat)
      ↔ i.toNat < 16384 := by
  have he : (Ser.toVec (.unitVariant name i vn)).1 = varint 32 i.toNat := by
    rw [Ser.toVec, Ser.ser, Ser.exec_serU32]
  rw [he]
  constructor
  · rintro ⟨j, r, h, hj⟩
    rw [Prog.run, exec_u16] at h
    cases hd : varintDecode 16 (varint 32 i.toNat ++ rest) with
    | none => rw [hd] at h; simp [ofDec] at h
    | some vr =>
      obtain ⟨n, r'⟩ := vr
      rw [hd] at h
      simp only [ofDec, Outcome.ok.injEq, Prod.mk.injEq] at h
      have hn := varintDecode_lt (by simp) hd
      have hjn : j.toNat = n := by rw [← h.1, UInt16.toNat_ofNat', Nat.mod_eq_of_lt hn]
      cases Nat.lt_or_ge i.toNat 16384 with
      | inl h => exact h
      | inr h => exact absurd (by omega) (u16_of_varint32 i.toNat i.toNat_lt h rest n r' hd)
  · intro h
    refine ⟨UInt16.ofNat i.toNat, rest, ?_, ?_⟩
    · rw [varint_32_16 _ h]
      exact exec_u16_varint t _ _ (by omega) rest
    · rw [UInt16.toNat_ofNat', Nat.mod_eq_of_lt (by omega)]

/-- At the level of enums: a value of a variant with index at least 2^14 is never
read back as itself, whatever the enum. -/
theorem C21_large_index (t : Target) (name : String) (vs : List (String × VTy)) (v : Val)
    (i : UInt32) (hi : indexOf v = some i) (h : 16384 ≤ i.toNat) (hs : Serializable v) (hf : Fits v)
    (rest r : List UInt8) :
    Prog.run t (de t (.enum name vs)) ((Ser.toVec v).1 ++ rest) ≠ .ok (v, r) := by
  have hw : ∃ w, (Ser.toVec v).1 = varint 32 i.toNat ++ w := by
    rw [Ser.toVec, Ser.exec_ser v hs hf]
    cases v <;> simp [indexOf] at hi <;> subst hi <;> simp [wire]
  obtain ⟨w, hw⟩ := hw
  rw [hw, List.append_assoc, de, Prog.run, Prog.bind_eq, Prog.exec_bind, exec_u16]
  intro hx
  cases hd : varintDecode 16 (varint 32 i.toNat ++ (w ++ rest)) with
  | none => rw [hd] at hx; simp [ofDec] at hx
  | some vr =>
    obtain ⟨n, r'⟩ := vr
    have hne := u16_of_varint32 i.toNat i.toNat_lt h _ n r' hd
    have hn := varintDecode_lt (by simp) hd
    rw [hd] at hx
    simp only [ofDec, Prog.next_ok] at hx
    obtain ⟨-, -, hidx⟩ := deVariant_index t name _ _ vs _ _ _ _ hx
    rw [hi, Option.some.injEq] at hidx
    have := congrArg UInt32.toNat hidx
    rw [UInt16.toNat_toUInt32, UInt16.toNat_ofNat', Nat.mod_eq_of_lt hn] at this
    exact hne this.symm

/-- Variant 16384 of a unit-only enum is read back as variant 512. -/
example : varint 32 16384 = [192, 0, 2] ∧ varintDecode 16 [192, 0, 2] = some (512, []) := by
  decide +kernel

/-! ## C22 names are not on the wire -/

mutual
theorem ser_erase : (v : Val) → Ser.ser (erase v) = Ser.ser v
  | .some v => by simp [erase, Ser.ser, ser_erase v]
  | .unitStruct _ => by simp [erase, Ser.ser]
  | .unitVariant _ _ _ => by simp [erase, Ser.ser]
  | .newtypeStruct _ v => by simp [erase, Ser.ser, ser_erase v]
  | .newtypeVariant _ _ _ v => by simp [erase, Ser.ser, ser_erase v]
  | .seq _ vs => by simp [erase, Ser.ser, serAll_erase vs]
  | .tuple vs => by simp [erase, Ser.ser, serAll_erase vs]
  | .tupleStruct _ vs => by simp [erase, Ser.ser, serAll_erase vs]
  | .tupleVariant _ _ _ vs => by simp [erase, Ser.ser, serAll_erase vs]
  | .map _ es => by simp [erase, Ser.ser, serEntries_erase es]
  | .struct _ fs => by simp [erase, Ser.ser, serFields_erase fs]
  | .structVariant _ _ _ fs => by simp [erase, Ser.ser, serFields_erase fs]
  | .bool _ => by simp [erase]
  | .i8 _ => by simp [erase]
  | .i16 _ => by simp [erase]
  | .i32 _ => by simp [erase]
  | .i64 _ => by simp [erase]
  | .i128 _ => by simp [erase]
  | .u8 _ => by simp [erase]
  | .u16 _ => by simp [erase]
  | .u32 _ => by simp [erase]
  | .u64 _ => by simp [erase]
  | .u128 _ => by simp [erase]
  | .f32 _ => by simp [erase]
  | .f64 _ => by simp [erase]
  | .char _ => by simp [erase]
  | .str _ => by simp [erase]
  | .bytes _ => by simp [erase]
  | .none => by simp [erase]
  | .unit => by simp [erase]
theorem serAll_erase : (vs : List Val) → Ser.serAll (eraseAll vs) = Ser.serAll vs
  | [] => by simp [eraseAll]
  | v :: vs => by simp [eraseAll, Ser.serAll, ser_erase v, serAll_erase vs]
theorem serEntries_erase : (es : List (Val × Val)) →
    Ser.serEntries (eraseEntries es) = Ser.serEntries es
  | [] => by simp [eraseEntries]
  | (k, v) :: es => by simp [eraseEntries, Ser.serEntries, ser_erase v, serEntries_erase es]
theorem serFields_erase : (fs : List (String × Val)) →
    Ser.serAll (eraseFields fs) = Ser.serFields fs
  | [] => by simp [eraseFields, Ser.serAll, Ser.serFields]
  | (_, v) :: fs => by
    simp [eraseFields, Ser.serAll, Ser.serFields, ser_erase v, serFields_erase fs]
end

/-- Two values that differ only in names and in the choice between structs,
tuple structs and tuples are written identically, on every writer. -/
theorem C22_names (v w : Val) (h : erase v = erase w) (s : WScript) :
    Ser.toVec v = Ser.toVec w ∧ (Ser.ser v).runScript s = (Ser.ser w).runScript s := by
  have : Ser.ser v = Ser.ser w := by rw [← ser_erase v, ← ser_erase w, h]
  rw [Ser.toVec, Ser.toVec, this]
  exact ⟨rfl, rfl⟩

/-- A struct is the concatenation of its fields, a newtype is its content. -/
theorem C22_struct (name : String) (fs : List (String × Val)) (h : FieldsSerializable fs)
    (hf : FieldsFit fs) : Ser.toVec (.struct name fs)
      = ((fs.map fun f => (Ser.toVec f.2).1).flatten, .ok ()) := by
  rw [Ser.toVec, Ser.ser]
  induction fs with
  | nil => rfl
  | cons f fs ih =>
    obtain ⟨n, v⟩ := f
    simp only [FieldsSerializable] at h
    simp only [FieldsFit] at hf
    rw [Ser.serFields, WProg.exec_andThen_ok (Ser.exec_ser v h.1 hf.1), ih h.2 hf.2]
    simp only [List.map_cons, List.flatten_cons]
    rw [Ser.toVec, Ser.exec_ser v h.1 hf.1]

theorem C22_newtype (name : String) (v : Val) : Ser.toVec (.newtypeStruct name v) = Ser.toVec v := by
  rw [Ser.toVec, Ser.ser]; rfl

example : erase (.struct "Point" [("x", .i32 1), ("y", .i32 2)])
    = erase (.tupleStruct "P" [.newtypeStruct "Meters" (.i32 1), .i32 2]) := by
  simp [erase, eraseFields, eraseAll]

/-! ## C23 floats -/

theorem C23_f32 (t : Target) (bits : UInt32) : Ser.toVec (.f32 bits) = (leBytes 4 bits.toNat, .ok ())
    ∧ ∀ rest, Prog.run t (de t .f32) (leBytes 4 bits.toNat ++ rest) = .ok (.f32 bits, rest) := by
  refine ⟨Ser.exec_serF32 bits, fun rest => ?_⟩
  rw [de]
  exact exec_wrap t _ _ _ _ _ _ (deF32_wire t _ bits rest)

theorem C23_f64 (t : Target) (bits : UInt64) : Ser.toVec (.f64 bits) = (leBytes 8 bits.toNat, .ok ())
    ∧ ∀ rest, Prog.run t (de t .f64) (leBytes 8 bits.toNat ++ rest) = .ok (.f64 bits, rest) := by
  refine ⟨Ser.exec_serF64 bits, fun rest => ?_⟩
  rw [de]
  exact exec_wrap t _ _ _ _ _ _ (deF64_wire t _ bits rest)

/-- A signalling NaN with a payload. -/
example : leBytes 4 0x7f800001 = [1, 0, 0x80, 0x7f] := by decide

/-! ## 32-bit targets: truncated lengths -/

/-- On a 32-bit target C10, C11 and C16 fail: `len as usize` truncates. The
announced length 2^32 + 128 is accepted with only 128 bytes of data before the
end of the input, and rejected when one more byte follows. -/
theorem C59_string_32bit (t : Target) (ht : t.ptr = .w32) :
    ∃ s, Prog.run t (de t .string) (varint 64 (2 ^ 32 + 128) ++ List.replicate 128 97)
        = .ok (.str s, []) ∧
      Prog.run t (de t .string) (varint 64 (2 ^ 32 + 128) ++ List.replicate 128 97 ++ [97])
        = .err .read := by
  have hlen : (UInt64.ofNat (2 ^ 32 + 128)).toNat = 2 ^ 32 + 128 := by decide +kernel
  have hus : t.asUsize (UInt64.ofNat (2 ^ 32 + 128)) = 128 := by
    rw [Target.asUsize, ht, hlen]; decide +kernel
  have hnot : ¬ (UInt64.ofNat (2 ^ 32 + 128) < 128) := by decide +kernel
  have hutf : ∀ n, utf8 (String.ofList (List.replicate n 'a')) = List.replicate n 97 := by
    intro n
    induction n with
    | zero => rfl
    | succ n ih =>
      rw [List.replicate_succ, String.ofList_cons, List.replicate_succ, ← ih]
      simp only [utf8, String.toByteArray_append]
      have : ∀ a b : ByteArray, (a ++ b).data.toList = a.data.toList ++ b.data.toList := by
        intro a b; rw [ByteArray.data_append, Array.toList_append]
      rw [this]
      rfl
  have hdec : ∀ n, fromUtf8 (List.replicate n 97) = some (String.ofList (List.replicate n 'a')) :=
    fun n => by rw [← hutf n, fromUtf8_utf8]
  refine ⟨String.ofList (List.replicate 128 'a'), ?_, ?_⟩
  · rw [de, Prog.run, exec_map, deString, Prog.bind_eq, Prog.exec_bind,
      exec_u64_varint t _ _ (by decide +kernel), Prog.next_ok, if_neg hnot]
    simp only [Prog.exec, hlen, List.length_replicate]
    rw [if_neg (by omega), hdec 128]
    simp only [hus, ne_eq, not_true_eq_false, if_false]
    rfl
  · rw [de, Prog.run, exec_map, deString, Prog.bind_eq, Prog.exec_bind, List.append_assoc,
      exec_u64_varint t _ _ (by decide +kernel), Prog.next_ok, if_neg hnot]
    have h129 : List.replicate 128 (97 : UInt8) ++ [97] = List.replicate 129 97 :=
      (List.replicate_succ' (n := 128)).symm
    simp only [Prog.exec, hlen, h129, List.length_replicate]
    rw [if_neg (by omega), hdec 129]
    simp only [hus]
    rfl

end Dlhn.Props
