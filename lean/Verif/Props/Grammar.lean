import Verif.Proof.Forms
import Verif.Props.Typed
/-!
# C120, C121: exactly which bytes are read, and as what

`Spec.Denotes` (Spec/Grammar.lean) is the grammar: which byte strings stand for which value of
a type. On 64-bit targets (lengths are cut down to 32 bits on others, C59).
-/
namespace Dlhn.Props

open Spec De

/-! ## C120 the grammar -/

/-- Deserializing yields a value and leaves a rest exactly if what it took stands for the
value. -/
theorem C120_accepts (t : Target) (ht : t.ptr = .w64) (hm : 4096 ≤ t.memLimit) (ty : Ty)
    (bs rest : List UInt8) (v : Val) :
    Prog.run t (de t ty) bs = .ok (v, rest) ↔ ∃ used, bs = used ++ rest ∧ Denotes ty v used :=
  parses_de ht hm ty .eof bs v rest

/-- Everything else is an error, for every type that does not ask for borrowed, ignored or
self-describing data. -/
theorem C120_rejects (t : Target) (ht : t.ptr = .w64) (hm : 4096 ≤ t.memLimit) (ty : Ty)
    (hd : Decodable ty) (bs : List UInt8) :
    (∃ e, Prog.run t (de t ty) bs = .err e) ↔
      ∀ used rest v, bs = used ++ rest → ¬ Denotes ty v used := by
  constructor
  · rintro ⟨e, he⟩ used rest v rfl hv
    rw [(C120_accepts t ht hm ty _ rest v).mpr ⟨used, rfl, hv⟩] at he
    cases he
  · intro h
    have hr := C13_no_panic t hm ty hd bs
    cases hx : Prog.run t (de t ty) bs with
    | ok vr =>
      obtain ⟨used, hu, hv⟩ := (C120_accepts t ht hm ty bs vr.2 vr.1).mp hx
      exact (h used vr.2 vr.1 hu hv).elim
    | err e => exact ⟨e, rfl⟩
    | panic p => rw [hx] at hr; exact hr.elim

/-- What is written is in the grammar. -/
theorem C120_written (t : Target) (ht : t.ptr = .w64) (hm : 4096 ≤ t.memLimit) (ty : Ty)
    (hs : Supported ty) (v : Val) (hv : Has t ty v) :
    ∃ enc, Ser.toVec v = (enc, .ok ()) ∧ Denotes ty v enc := by
  obtain ⟨enc, h1, h2⟩ := C07_roundtrip t hm ty hs v hv
  obtain ⟨used, hu, hd⟩ := (C120_accepts t ht hm ty _ _ v).mp (h2 [])
  simp only [List.append_nil] at hu
  exact ⟨enc, h1, hu ▸ hd⟩

/-- The grammar is unambiguous: of a byte string, at most one beginning stands for a value of
the type, and it stands for one. -/
theorem C120_unambiguous (ty : Ty) (u u' r r' : List UInt8) (v v' : Val) (h : u ++ r = u' ++ r')
    (hu : Denotes ty v u) (hu' : Denotes ty v' u') : u = u' ∧ v = v' := by
  let t : Target := ⟨.w64, 4096⟩
  have h1 := (C120_accepts t rfl (Nat.le_refl _) ty _ r v).mpr ⟨u, rfl, hu⟩
  have h2 := (C120_accepts t rfl (Nat.le_refl _) ty _ r' v').mpr ⟨u', rfl, hu'⟩
  rw [← h, h1] at h2
  simp only [Outcome.ok.injEq, Prod.mk.injEq] at h2
  obtain ⟨rfl, rfl⟩ := h2
  exact ⟨List.append_cancel_right h, rfl⟩

/-- What the grammar gives are values of the type. -/
theorem C120_typed (t : Target) (ht : t.ptr = .w64) (ty : Ty) (hs : Supported ty) (v : Val)
    (u : List UInt8) (h : Denotes ty v u) : Has t ty v := by
  let s : Target := ⟨.w64, 4096⟩
  have h1 := (C120_accepts s rfl (Nat.le_refl _) ty _ [] v).mpr ⟨u, rfl, h⟩
  obtain ⟨n, hn, hv, hle⟩ := yields_de s t ty hs _ _ _ _ h1
  exact hv (.inl ht)

/-- 300 as a `u32`: in two, three, four and five bytes, and nothing else. -/
example (u : List UInt8) : Denotes .u32 (.u32 300) u ↔
    u = [172, 4] ∨ u = [204, 9, 0] ∨ u = [236, 18, 0, 0] ∨
      ∃ b : UInt8, 240 ≤ b.toNat ∧ u = [b, 44, 1, 0, 0] := by
  rw [Denotes]
  constructor
  · rintro ⟨x, hx, h⟩
    cases hx
    rcases h with ⟨k, hk1, hk, hlt, rfl⟩ | ⟨b, hb, hlt, rfl⟩
    · have : k = 1 ∨ k = 2 ∨ k = 3 ∨ k = 4 := by omega
      rcases this with rfl | rfl | rfl | rfl
      · exact absurd hlt (by decide)
      · exact .inl (by decide)
      · exact .inr (.inl (by decide))
      · exact .inr (.inr (.inl (by decide)))
    · exact .inr (.inr (.inr ⟨b, hb, by simp [leBytes]⟩))
  · rintro (rfl | rfl | rfl | ⟨b, hb, rfl⟩)
    · exact ⟨_, rfl, .inl ⟨2, by decide, by decide, by decide, by decide⟩⟩
    · exact ⟨_, rfl, .inl ⟨3, by decide, by decide, by decide, by decide⟩⟩
    · exact ⟨_, rfl, .inl ⟨4, by decide, by decide, by decide, by decide⟩⟩
    · exact ⟨_, rfl, .inr ⟨b, hb, by decide, by simp [leBytes]⟩⟩

/-- The sample value is in the grammar. -/
example : ∃ enc, Ser.toVec sampleVal = (enc, .ok ()) ∧ Denotes sampleTy sampleVal enc :=
  C120_written ⟨.w64, 4096⟩ rfl (Nat.le_refl _) _ sampleTy_supported _ (sampleVal_has _)

/-- A character is the first of a string of any length; the others are dropped. -/
example (t : Target) (ht : t.ptr = .w64) (hm : 4096 ≤ t.memLimit) :
    Prog.run t (de t .char) [2, 97, 98, 5] = .ok (.char 'a', [5]) :=
  (C120_accepts t ht hm _ _ _ _).mpr ⟨[2, 97, 98], rfl, by
    rw [Denotes]
    exact ⟨'a', ['b'], rfl, [2], .inl ⟨1, by decide, by decide, by decide, by decide⟩, by decide⟩⟩

/-! ## C121 changes of data that go unnoticed -/

/-- Without 16-bit and 32-bit integers, data read as a value are its encoding exactly if they
are as long as that: comparing lengths detects every other form. -/
theorem C121_canonical (t : Target) (ht : t.ptr = .w64) (hm : 4096 ≤ t.memLimit) (ty : Ty)
    (hs : Supported ty) (hn : NoNarrow ty) (bs rest : List UInt8) (v : Val)
    (h : Prog.run t (de t ty) bs = .ok (v, rest)) (enc : List UInt8)
    (he : Ser.toVec v = (enc, .ok ())) :
    enc.length + rest.length ≤ bs.length ∧
      (bs = enc ++ rest ↔ bs.length = enc.length + rest.length) := by
  obtain ⟨used, rfl, hd⟩ := (C120_accepts t ht hm ty bs rest v).mp h
  obtain ⟨h1, h2⟩ := has_ok t ty hs v (C120_typed t ht ty hs v used hd)
  have hw : enc = wire v := by
    have := Ser.exec_ser v h1 h2
    rw [Ser.toVec, this] at he
    simpa using he.symm
  subst hw
  have hc := close_de False ty hs (.inr hn) v used hd
  refine ⟨by simp; exact hc.1, fun hx => by rw [hx]; simp, fun hx => ?_⟩
  simp only [List.length_append] at hx
  rw [(hc.2 (by omega)).eq]

/-- So data of such a type that were changed without changing their length are not read as the
value they were written from: reading them fails, gives another value, or ends elsewhere. -/
theorem C121_damage (t : Target) (ht : t.ptr = .w64) (hm : 4096 ≤ t.memLimit) (ty : Ty)
    (hs : Supported ty) (hn : NoNarrow ty) (v : Val) (enc bad rest : List UInt8)
    (he : Ser.toVec v = (enc, .ok ())) (hl : bad.length = enc.length) (hb : bad ≠ enc) :
    Prog.run t (de t ty) (bad ++ rest) ≠ .ok (v, rest) := by
  intro h
  have hc := (C121_canonical t ht hm ty hs hn _ rest v h enc he).2.mpr (by simp [hl])
  exact hb (List.append_cancel_right hc)

/-- With integers of 16 and 32 bits, data of the length of the encoding that are read as the
value differ from it at most where the encoding has 192 or 240. -/
theorem C121_where (t : Target) (ht : t.ptr = .w64) (hm : 4096 ≤ t.memLimit) (ty : Ty)
    (hs : Supported ty) (used rest : List UInt8) (v : Val)
    (h : Prog.run t (de t ty) (used ++ rest) = .ok (v, rest)) (enc : List UInt8)
    (he : Ser.toVec v = (enc, .ok ())) (hl : used.length = enc.length) : Blurred used enc := by
  obtain ⟨u, hu, hd⟩ := (C120_accepts t ht hm ty _ rest v).mp h
  have hu := List.append_cancel_right hu
  subst hu
  obtain ⟨h1, h2⟩ := has_ok t ty hs v (C120_typed t ht ty hs v used hd)
  have hw : enc = wire v := by
    have := Ser.exec_ser v h1 h2
    rw [Ser.toVec, this] at he
    simpa using he.symm
  subst hw
  exact ((close_de True ty hs (.inl trivial) v used hd).2 hl).blurred

/-- There, changes do go unnoticed: every `u16` from 16384 on is read whatever the low six bits
of its first byte. -/
theorem C121_u16 (t : Target) (ht : t.ptr = .w64) (hm : 4096 ≤ t.memLimit) (x : UInt16)
    (hx : 16384 ≤ x.toNat) (b : UInt8) (hb : 192 ≤ b.toNat) (rest : List UInt8) :
    ∃ tail, Ser.toVec (.u16 x) = (192 :: tail, .ok ()) ∧
      Prog.run t (de t .u16) (b :: tail ++ rest) = .ok (.u16 x, rest) := by
  have hg : ¬ groups x.toNat ≤ 2 := fun h => by
    have := (PrefixVarint.groups_le_iff 1 x.toNat).mp h
    omega
  refine ⟨leBytes 2 x.toNat, ?_, ?_⟩
  · rw [show Ser.toVec (.u16 x) = _ from Ser.exec_ser (.u16 x) trivial trivial, wire, varint,
      if_neg hg]
    rfl
  · exact (C120_accepts t ht hm _ _ _ _).mpr ⟨_, rfl, by
      rw [Denotes]; exact ⟨x, rfl, .inr ⟨b, hb, x.toNat_lt, rfl⟩⟩⟩

/-- Every `u32` from 2^28 on is read whatever the low four bits of its first byte. -/
theorem C121_u32 (t : Target) (ht : t.ptr = .w64) (hm : 4096 ≤ t.memLimit) (x : UInt32)
    (hx : 2 ^ 28 ≤ x.toNat) (b : UInt8) (hb : 240 ≤ b.toNat) (rest : List UInt8) :
    ∃ tail, Ser.toVec (.u32 x) = (240 :: tail, .ok ()) ∧
      Prog.run t (de t .u32) (b :: tail ++ rest) = .ok (.u32 x, rest) := by
  have hg : ¬ groups x.toNat ≤ 4 := fun h => by
    have := (PrefixVarint.groups_le_iff 3 x.toNat).mp h
    omega
  refine ⟨leBytes 4 x.toNat, ?_, ?_⟩
  · rw [show Ser.toVec (.u32 x) = _ from Ser.exec_ser (.u32 x) trivial trivial, wire, varint,
      if_neg hg]
    rfl
  · exact (C120_accepts t ht hm _ _ _ _).mpr ⟨_, rfl, by
      rw [Denotes]; exact ⟨x, rfl, .inr ⟨b, hb, x.toNat_lt, rfl⟩⟩⟩

/-- The same for `i16` outside -8192..8191. -/
theorem C121_i16 (t : Target) (ht : t.ptr = .w64) (hm : 4096 ≤ t.memLimit) (x : Int16)
    (hx : x.toInt < -8192 ∨ 8192 ≤ x.toInt) (b : UInt8) (hb : 192 ≤ b.toNat) (rest : List UInt8) :
    ∃ tail, Ser.toVec (.i16 x) = (192 :: tail, .ok ()) ∧
      Prog.run t (de t .i16) (b :: tail ++ rest) = .ok (.i16 x, rest) := by
  have hz : 16384 ≤ zigzag x.toInt := by unfold zigzag; split <;> omega
  have hg : ¬ groups (zigzag x.toInt) ≤ 2 := fun h => by
    have := (PrefixVarint.groups_le_iff 1 _).mp h
    omega
  refine ⟨leBytes 2 (zigzag x.toInt), ?_, ?_⟩
  · rw [show Ser.toVec (.i16 x) = _ from Ser.exec_ser (.i16 x) trivial trivial, wire, varint,
      if_neg hg]
    rfl
  · exact (C120_accepts t ht hm _ _ _ _).mpr ⟨_, rfl, by
      rw [Denotes]
      refine ⟨x, rfl, .inr ⟨b, hb, ?_, rfl⟩⟩
      rw [← ZigZag.encodeI16_spec]; exact UInt16.toNat_lt _⟩

/-- The same for `i32` outside -2^27..2^27-1. -/
theorem C121_i32 (t : Target) (ht : t.ptr = .w64) (hm : 4096 ≤ t.memLimit) (x : Int32)
    (hx : x.toInt < -2 ^ 27 ∨ 2 ^ 27 ≤ x.toInt) (b : UInt8) (hb : 240 ≤ b.toNat)
    (rest : List UInt8) :
    ∃ tail, Ser.toVec (.i32 x) = (240 :: tail, .ok ()) ∧
      Prog.run t (de t .i32) (b :: tail ++ rest) = .ok (.i32 x, rest) := by
  have hz : 2 ^ 28 ≤ zigzag x.toInt := by unfold zigzag; split <;> omega
  have hg : ¬ groups (zigzag x.toInt) ≤ 4 := fun h => by
    have := (PrefixVarint.groups_le_iff 3 _).mp h
    omega
  refine ⟨leBytes 4 (zigzag x.toInt), ?_, ?_⟩
  · rw [show Ser.toVec (.i32 x) = _ from Ser.exec_ser (.i32 x) trivial trivial, wire, varint,
      if_neg hg]
    rfl
  · exact (C120_accepts t ht hm _ _ _ _).mpr ⟨_, rfl, by
      rw [Denotes]
      refine ⟨x, rfl, .inr ⟨b, hb, ?_, rfl⟩⟩
      rw [← ZigZag.encodeI32_spec]; exact UInt32.toNat_lt _⟩

/-- 65535, altered unnoticed. -/
example (t : Target) (ht : t.ptr = .w64) (hm : 4096 ≤ t.memLimit) :
    Ser.toVec (.u16 65535) = ([192, 255, 255], .ok ()) ∧
      Prog.run t (de t .u16) [255, 255, 255] = .ok (.u16 65535, []) := by
  refine ⟨by decide, ?_⟩
  obtain ⟨tail, h1, h2⟩ := C121_u16 t ht hm 65535 (by decide) 255 (by decide) []
  have : Ser.toVec (.u16 65535) = ([192, 255, 255], .ok ()) := by decide
  rw [this] at h1
  simp only [Prod.mk.injEq, List.cons.injEq, true_and, and_true] at h1
  subst h1
  exact h2

/-- A type to which `C121_canonical` and `C121_damage` apply. -/
example : Supported (.struct "P" [("name", .string), ("at", .option .u64), ("tag", .seq .u8)]) ∧
    NoNarrow (.struct "P" [("name", .string), ("at", .option .u64), ("tag", .seq .u8)]) := by
  simp [Supported, FieldsSupported, NoNarrow, FieldsNoNarrow]

/-- Longer forms do go unnoticed, for 64-bit integers too. -/
example (t : Target) (ht : t.ptr = .w64) (hm : 4096 ≤ t.memLimit) :
    Prog.run t (de t .u64) [128, 0] = .ok (.u64 0, []) :=
  (C120_accepts t ht hm _ _ _ _).mpr ⟨[128, 0], rfl, by
    rw [Denotes]; exact ⟨0, rfl, .inl ⟨2, by decide, by decide, by decide, by decide⟩⟩⟩

end Dlhn.Props
