import Verif.Proof.Bounds
import Verif.Proof.DeriveSer
import Verif.Props.Cost
import Verif.Props.Derive
import Verif.Props.Date
/-!
# C103, C104: size limits of encodings, and buffers of fixed size

`minSize`, `maxSize`, `minBody`, `maxBody` (Spec/Bounds.lean) compute, from a type or a
header, how many bytes its values take at least and at most. `WProg.runSlice p n`
(Model/Writer.lean) runs an encoder on a `&mut [u8]` of `n` bytes.
-/
namespace Dlhn.Props

open Spec De

/-! ## C103 limits -/

/-- Every value of a type is within the limits of the type. -/
theorem C103_typed (t : Target) (ty : Ty) (hs : Supported ty) (v : Val) (hv : Has t ty v) :
    ∃ enc, Ser.toVec v = (enc, .ok ()) ∧ minSize ty ≤ enc.length ∧
      ∀ m, maxSize t ty = some m → enc.length ≤ m := by
  obtain ⟨h1, h2⟩ := has_ok t ty hs v hv
  have h := sized_ty (t := t) ty hs
  exact ⟨wire v, Ser.exec_ser v h1 h2, h.ge _ ⟨v, hv, rfl⟩, h.le _ ⟨v, hv, rfl⟩⟩

/-- The limits are reached: no larger minimum and no smaller maximum would do, and
where there is no maximum there are values longer than any number below the size of
the address space. -/
theorem C103_reached (t : Target) (ty : Ty) (hs : Supported ty) (hp : Populated ty) :
    (∃ v, Has t ty v ∧ (Ser.toVec v).1.length = minSize ty) ∧
    (∀ m, maxSize t ty = some m → ∃ v, Has t ty v ∧ (Ser.toVec v).1.length = m) ∧
    (maxSize t ty = none → ∀ k, k < 2 ^ t.ptr.bits →
      ∃ v, Has t ty v ∧ k ≤ (Ser.toVec v).1.length) := by
  have h := sized_ty (t := t) ty hs
  have e : ∀ v, Has t ty v → (Ser.toVec v).1 = wire v := fun v hv => by
    obtain ⟨h1, h2⟩ := has_ok t ty hs v hv
    rw [Ser.toVec, Ser.exec_ser v h1 h2]
  refine ⟨?_, fun m hm => ?_, fun hn k hk => ?_⟩
  · obtain ⟨v, hv, hl⟩ := h.lo_mem hp
    exact ⟨v, hv, by rw [e v hv, hl]⟩
  · obtain ⟨v, hv, hl⟩ := h.hi_mem hp m hm
    exact ⟨v, hv, by rw [e v hv, hl]⟩
  · obtain ⟨n, hn, v, hv, hl⟩ := h.unbounded hp hn k hk
    exact ⟨v, hv, by rw [e v hv, hl]; exact hn⟩

/-- `struct P { id: u16, mark: Option<char>, kind: enum { A, B(f64) } }` -/
def boundedTy : Ty := .struct "P" [("id", .u16), ("mark", .option .char),
  ("kind", .enum "K" [("A", .unit), ("B", .newtype .f64)])]

theorem boundedTy_ok : Supported boundedTy ∧ Populated boundedTy := by
  simp [boundedTy, Supported, FieldsSupported, VariantsSupported, PayloadSupported, Populated,
    FieldsPopulated, VariantsPopulated, PayloadPopulated]

/-- takes 3 to 18 bytes, -/
theorem boundedTy_limits (t : Target) : minSize boundedTy = 3 ∧ maxSize t boundedTy = some 18 := by
  simp [boundedTy, minSize, minSizeFields, minSizeVariants, minSizePayload, maxSize,
    maxSizeFields, maxSizeVariants, maxSizePayload, addBound, maxBound, length_varint, varintLen,
    groups]

/-- and the other sample type at least 3 and any number. -/
example (t : Target) : minSize sampleTy = 3 ∧ maxSize t sampleTy = none ∧ Supported sampleTy ∧
    Populated sampleTy :=
  ⟨by simp [sampleTy, minSize, minSizeFields, minSizeVariants, minSizePayload, minSizeAll,
      length_varint, varintLen, groups],
    by simp [sampleTy, maxSize, maxSizeFields, addBound],
    sampleTy_supported,
    by simp [sampleTy, Populated, FieldsPopulated, VariantsPopulated, PayloadPopulated,
      AllPopulated]⟩

/-- A vector of units is only a count, of up to 9 bytes or 5 on 32-bit targets. -/
example : maxSize ⟨.w64, 0⟩ (.seq .unit) = some 9 ∧ maxSize ⟨.w32, 0⟩ (.seq .unit) = some 5 := by
  simp [maxSize, maxCount]

/-- Decoding a value consumes at least the minimum. -/
theorem C103_consumes (t : Target) (ty : Ty) (hs : Supported ty) (fin : Ending)
    (bs rest : List UInt8) (v : Val) (h : Prog.exec t fin (de t ty) bs = .ok (v, rest)) :
    minSize ty + rest.length ≤ bs.length := by
  obtain ⟨n, hn, hv, hl⟩ := yields_de t ⟨.w64, 0⟩ ty hs fin bs v rest h
  have := (sized_ty (t := ⟨.w64, 0⟩) ty hs).ge _ ⟨v, hv (.inl rfl), rfl⟩
  omega

/-- So input shorter than the minimum is an error, whatever the bytes. -/
theorem C103_short (t : Target) (hm : 4096 ≤ t.memLimit) (ty : Ty) (hs : Supported ty)
    (fin : Ending) (bs : List UInt8) (h : bs.length < minSize ty) :
    ∃ e, Prog.exec t fin (de t ty) bs = .err e := by
  have hr := (total_de hm ty (supported_decodable ty hs)).exec fin bs
  cases hx : Prog.exec t fin (de t ty) bs with
  | err e => exact ⟨e, rfl⟩
  | ok a =>
    have := C103_consumes t ty hs fin bs a.2 a.1 hx
    omega
  | panic q => rw [hx] at hr; exact hr.elim

example (t : Target) (hm : 4096 ≤ t.memLimit) (a b : UInt8) :
    ∃ e, Prog.exec t .eof (de t boundedTy) [a, b] = .err e :=
  C103_short t hm _ boundedTy_ok.1 .eof [a, b] (by rw [(boundedTy_limits t).1]; simp)

/-- Every body is within the limits of its header. -/
theorem C103_body (t : Target) (mode : BuildMode) (h : Header) (b : Body)
    (hv : Body.validate h b = true) (he : Exists t b) (hd : DatesFit mode b) :
    ∃ enc, Body.toVec mode b = (enc, .ok ()) ∧ minBody h ≤ enc.length ∧
      ∀ m, maxBody t h = some m → enc.length ≤ m := by
  have hS := sized_body (t := t) (mode := mode) h
  have hb : BodyLens t mode h (bodyWire b).length :=
    ⟨b, (Body.validate_iff h b).mp hv, ⟨he, hd⟩, rfl⟩
  exact ⟨bodyWire b, C35_encoding t mode b he hd, hS.ge _ hb, hS.le _ hb⟩

/-- The limits of a header are reached. -/
theorem C103_body_reached (t : Target) (mode : BuildMode) (h : Header) (hp : PopulatedHeader h) :
    (∃ b, Body.validate h b = true ∧ Exists t b ∧ DatesFit mode b ∧
      (Body.toVec mode b).1.length = minBody h) ∧
    (∀ m, maxBody t h = some m → ∃ b, Body.validate h b = true ∧ Exists t b ∧ DatesFit mode b ∧
      (Body.toVec mode b).1.length = m) ∧
    (maxBody t h = none → ∀ k, k < 2 ^ t.ptr.bits → ∃ b, Body.validate h b = true ∧
      Exists t b ∧ DatesFit mode b ∧ k ≤ (Body.toVec mode b).1.length) := by
  have hS := sized_body (t := t) (mode := mode) h
  have key : ∀ n, BodyLens t mode h n → ∃ b, Body.validate h b = true ∧ Exists t b ∧
      DatesFit mode b ∧ (Body.toVec mode b).1.length = n := by
    rintro n ⟨b, hc, ⟨he, hd⟩, hl⟩
    exact ⟨b, (Body.validate_iff h b).mpr hc, he, hd, by rw [C35_encoding t mode b he hd]; exact hl⟩
  refine ⟨key _ (hS.lo_mem hp), fun m hm => key m (hS.hi_mem hp m hm), fun hn k hk => ?_⟩
  obtain ⟨n, hn, hl⟩ := hS.unbounded hp hn k hk
  obtain ⟨b, h1, h2, h3, h4⟩ := key n hl
  exact ⟨b, h1, h2, h3, by omega⟩

/-- An event: a timestamp, and a number or a date. -/
def eventShape : Header := .tuple [.dateTime, .enum [.int32, .date]]

example (t : Target) : minBody eventShape = 4 ∧ maxBody t eventShape = some 23 ∧
    PopulatedHeader eventShape :=
  ⟨by simp [eventShape, minBody, minBodies, minVariant, length_varint, varintLen, groups],
    by simp [eventShape, maxBody, maxBodies, maxVariant, addBound, maxBound, length_varint,
      varintLen, groups],
    by simp [PopulatedHeader, eventShape, headerParts, headersParts]⟩

/-- Decoding under a header consumes at least the minimum. -/
theorem C103_body_consumes (t : Target) (mode : BuildMode) (size : Nat) (h : Header)
    (fin : Ending) (bs rest : List UInt8) (b : Body)
    (hx : Prog.exec t fin (Body.de t mode size h) bs = .ok (b, rest)) :
    minBody h + rest.length ≤ bs.length := by
  obtain ⟨n, hn, hg, hl⟩ := Body.yields_body (Body.Wider.any t size) mode h fin bs b rest hx
  have hc := Body.returns_conforms t mode size h fin bs b rest hx
  have := (sized_body (t := ⟨.w64, 0⟩) (mode := mode) h).ge _ ⟨b, hc, ⟨hg.exist, hg.dates⟩, rfl⟩
  omega

/-- The values of a type that derives `Serialize` and `SerializeHeader` are within the
limits of its header. -/
theorem C103_derived (t : Target) (mode : BuildMode) (T : RTy) (h : Header)
    (hT : Announces T h) (hp : Plain T) (v : Derive.Carrier T) (hr : Real t T v)
    (hd : DatesRebase mode T v) :
    ∃ enc, (Derive.ser mode T v).exec = (enc, .ok ()) ∧ minBody h ≤ enc.length ∧
      ∀ m, maxBody t h = some m → enc.length ≤ m := by
  obtain ⟨hD, hc⟩ := (announces_iff T h).mp hT
  have h0 : ∀ n, Target.allocate ⟨t.ptr, 4096⟩ (n * 0) = none := fun n => by
    simp [Target.allocate]
  obtain ⟨b, bs, -, ha⟩ := Derive.agree (N := False) (D := False) ⟨t.ptr, 4096⟩ mode 0
    (Nat.le_refl _) T h hD hc hp (fun _ _ => h0 _) v
    fun p hpp => ⟨hr p hpp, fun U vs he => h0 _,
      fun hmode d he => hd hmode d (he ▸ hpp), nofun, nofun, nofun, nofun⟩
  have hcf := Body.returns_conforms _ mode 0 h .eof _ _ _ (ha.decodes .eof [])
  have hS := sized_body (t := t) (mode := mode) h
  have hb : BodyLens t mode h (bodyWire b).length := ⟨b, hcf, ⟨ha.good.exist, ha.good.dates⟩, rfl⟩
  have hl := spells_length b bs ha.spells
  exact ⟨bs, ha.bytes, hl ▸ hS.ge _ hb, fun m hm => hl ▸ hS.le _ hb m hm⟩

/-- Calendar dates take 2 to 5 bytes, -/
theorem C103_calendar (mode : BuildMode) (d : Time.Date) (h : d.Valid) :
    ∃ enc, ((Date.ofTime d).ser mode).exec = (enc, .ok ()) ∧ 2 ≤ enc.length ∧ enc.length ≤ 5 := by
  refine ⟨_, C49_bytes mode d h, ?_⟩
  obtain ⟨h1, h2, h3, h4⟩ := h
  have a := varint_pos 32 (zigzag (d.year.toInt - 2000))
  have b := varint_pos 16 (d.ordinal.toNat - 1)
  have c := varintLen_mono 32 (show zigzag (d.year.toInt - 2000) ≤ 23998 by rw [zigzag]; split <;> omega)
  have e := varintLen_mono 16 (show d.ordinal.toNat - 1 ≤ 365 by omega)
  rw [show varintLen 32 23998 = 3 by simp [varintLen, groups]] at c
  rw [show varintLen 16 365 = 2 by simp [varintLen, groups]] at e
  rw [← length_varint] at c e
  rw [List.length_append]
  omega

/-- and timestamps 2 to 11. -/
theorem C103_timestamp (d : Time.OffsetDateTime) (h : d.Valid) :
    ∃ enc, (DateTime.ofTime d).ser.exec = (enc, .ok ()) ∧ 2 ≤ enc.length ∧ enc.length ≤ 11 := by
  refine ⟨_, DateTime.exec_ser _, ?_⟩
  obtain ⟨e1, e2⟩ := valid_fits h
  obtain ⟨h1, h2, h3, h4, h5⟩ := h
  rw [firstSecond_val] at h4
  rw [lastSecond_val] at h5
  rw [dateTimeWire, List.length_append]
  have k1 : (DateTime.ofTime d).unixTimestamp.toInt = d.seconds := e1
  have k2 : (DateTime.ofTime d).nanosecond.toNat = d.nanos := e2
  rw [k1, k2]
  have a := varint_pos 64 (zigzag d.seconds)
  have b := varint_pos 32 d.nanos
  have c := varintLen_mono 64 (show zigzag d.seconds ≤ 1000000000000 by rw [zigzag]; split <;> omega)
  have e := varint_le 32 d.nanos
  rw [show varintLen 64 1000000000000 = 6 by simp [varintLen, groups]] at c
  rw [← length_varint] at c
  omega

/-- Both limits are reached. -/
theorem C103_calendar_reached (mode : BuildMode) :
    (∃ d : Time.Date, d.Valid ∧ ((Date.ofTime d).ser mode).exec.1.length = 2) ∧
    (∃ d : Time.Date, d.Valid ∧ ((Date.ofTime d).ser mode).exec.1.length = 5) ∧
    (∃ d : Time.OffsetDateTime, d.Valid ∧ (DateTime.ofTime d).ser.exec.1.length = 2) ∧
    (∃ d : Time.OffsetDateTime, d.Valid ∧ (DateTime.ofTime d).ser.exec.1.length = 11) := by
  have v1 : Time.Date.Valid ⟨2000, 1⟩ := ⟨by decide, by decide, by decide, Or.inl (by decide)⟩
  have v2 : Time.Date.Valid ⟨-9999, 365⟩ := ⟨by decide, by decide, by decide, Or.inl (by decide)⟩
  have v3 : Time.OffsetDateTime.Valid ⟨0, 0, 0⟩ := by
    refine ⟨by decide, by decide, by decide, ?_, ?_⟩
    · rw [firstSecond_val]; decide
    · rw [lastSecond_val]; decide
  have v4 : Time.OffsetDateTime.Valid ⟨-377705116800, 999999999, 0⟩ := by
    refine ⟨by decide, by decide, by decide, ?_, ?_⟩
    · rw [firstSecond_val]; decide
    · rw [lastSecond_val]; decide
  refine ⟨⟨_, v1, ?_⟩, ⟨_, v2, ?_⟩, ⟨_, v3, ?_⟩, ⟨_, v4, ?_⟩⟩
  · rw [C49_bytes mode _ v1, List.length_append, length_varint, length_varint]
    rw [show zigzag ((2000 : Int32).toInt - 2000) = 0 by decide,
      show (1 : UInt16).toNat - 1 = 0 by decide]
    simp [varintLen, groups]
  · rw [C49_bytes mode _ v2, List.length_append, length_varint, length_varint]
    rw [show zigzag ((-9999 : Int32).toInt - 2000) = 23997 by decide,
      show (365 : UInt16).toNat - 1 = 364 by decide]
    simp [varintLen, groups]
  · obtain ⟨e1, e2⟩ := valid_fits v3
    rw [DateTime.exec_ser, dateTimeWire, List.length_append, length_varint, length_varint]
    rw [show (DateTime.ofTime ⟨0, 0, 0⟩).unixTimestamp.toInt = 0 from e1,
      show (DateTime.ofTime ⟨0, 0, 0⟩).nanosecond.toNat = 0 from e2]
    simp [varintLen, groups, zigzag]
  · obtain ⟨e1, e2⟩ := valid_fits v4
    rw [DateTime.exec_ser, dateTimeWire, List.length_append, length_varint, length_varint]
    rw [show (DateTime.ofTime ⟨-377705116800, 999999999, 0⟩).unixTimestamp.toInt = -377705116800
        from e1,
      show (DateTime.ofTime ⟨-377705116800, 999999999, 0⟩).nanosecond.toNat = 999999999 from e2,
      show zigzag (-377705116800) = 755410233599 by decide]
    simp [varintLen, groups]

/-! ## C104 buffers of fixed size -/

/-- Serializing a value to a `&mut [u8]` of `n` bytes fills the slice with the first
`n` bytes of the encoding, and succeeds exactly if that is all; if not, the error is
`Write`. -/
theorem C104_typed (v : Val) (n : Nat) :
    (Ser.ser v).runSlice n = ((Ser.toVec v).1.take n,
      if (Ser.toVec v).1.length ≤ n then (Ser.toVec v).2 else .err .write) :=
  WProg.runSlice_eq (Ser.good_ser v).maps n

/-- A slice as long as the maximum of the type is enough for every value, -/
theorem C104_enough (t : Target) (ty : Ty) (hs : Supported ty) (m : Nat)
    (hm : maxSize t ty = some m) (v : Val) (hv : Has t ty v) :
    ((Ser.ser v).runSlice m).2 = .ok () := by
  obtain ⟨enc, he, -, hl⟩ := C103_typed t ty hs v hv
  rw [C104_typed, he, if_pos (hl m hm)]

/-- and any shorter slice is too short for some value. -/
theorem C104_too_small (t : Target) (ty : Ty) (hs : Supported ty) (hp : Populated ty) (m : Nat)
    (hm : maxSize t ty = some m) (n : Nat) (hn : n < m) :
    ∃ v, Has t ty v ∧ ((Ser.ser v).runSlice n).2 = .err .write := by
  obtain ⟨v, hv, hl⟩ := (C103_reached t ty hs hp).2.1 m hm
  exact ⟨v, hv, by rw [C104_typed, if_neg (by omega)]⟩

example (t : Target) (v : Val) (hv : Has t boundedTy v) : ((Ser.ser v).runSlice 18).2 = .ok () :=
  C104_enough t _ boundedTy_ok.1 18 (boundedTy_limits t).2 v hv

example (t : Target) : ∃ v, Has t boundedTy v ∧ ((Ser.ser v).runSlice 17).2 = .err .write :=
  C104_too_small t _ boundedTy_ok.1 boundedTy_ok.2 18 (boundedTy_limits t).2 17 (by decide)

/-- The same for dynamic values, -/
theorem C104_body (mode : BuildMode) (b : Body) (n : Nat) :
    (Body.ser mode b).runSlice n = ((Body.toVec mode b).1.take n,
      if (Body.toVec mode b).1.length ≤ n then (Body.toVec mode b).2 else .err .write) :=
  WProg.runSlice_eq (Body.maps_ser mode b) n

/-- for derived types, -/
theorem C104_derived (mode : BuildMode) (T : RTy) (v : Derive.Carrier T) (n : Nat) :
    (Derive.ser mode T v).runSlice n = ((Derive.ser mode T v).exec.1.take n,
      if (Derive.ser mode T v).exec.1.length ≤ n then (Derive.ser mode T v).exec.2
      else .err .write) :=
  WProg.runSlice_eq (Derive.wclosed_ser Derive.wclosed_maps mode (.inr trivial) T v) n

/-- for headers, where the error is that of the slice, -/
theorem C104_header (h : Header) (n : Nat) :
    h.serialize.runSlice n = (h.toVec.1.take n,
      if h.toVec.1.length ≤ n then h.toVec.2 else .err .writeZero) :=
  WProg.runSlice_eq (Header.maps_serialize h) n

/-- and for headers of types. -/
theorem C104_type_header (T : RTy) (p : WProg IoErr) (hT : Derive.serializeHeader T = .ok p)
    (n : Nat) :
    p.runSlice n = (p.exec.1.take n,
      if p.exec.1.length ≤ n then p.exec.2 else .err .writeZero) :=
  WProg.runSlice_eq (Derive.maps_header T p hT) n

end Dlhn.Props
