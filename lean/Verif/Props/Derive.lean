import Verif.Proof.DeriveBody
import Verif.Props.Header
import Verif.Props.Body
/-!
# C34, C38, C55-C58, C69, C70: types, their headers and their values

`serializeHeader T = .ok p` says that `T: SerializeHeader`, built in or derived,
and that `T::serialize_header` makes the writes `p`; `.error e` says that the
program does not compile. `ser mode T v` are the writes of serializing `v : T`
with serde. `Describes T h` and `Mirrors T v b` of `Spec/Derive.lean` relate types
to headers and values to bodies.
-/
namespace Dlhn.Props

open Spec hiding variantFields
open Derive

/-! ## Sample types -/

/-- `#[serde(skip)]` -/
def skipAttr : Attr := ⟨some "serde", some [some "skip"]⟩

/-- `#[serde(skip_serializing_if = "..")]` -/
def skipIfAttr : Attr := ⟨some "serde", some [some "skip_serializing_if"]⟩

/-- `#[doc(..)]` -/
def docAttr : Attr := ⟨some "doc", some [some "skip"]⟩

/-- `enum Shape { Empty, Circle(u16), Rect { w: u8, h: u8 } }` -/
def shapeTy : RTy := .enum "Shape" [.mk [] "Empty" .unit,
  .mk [docAttr] "Circle" (.unnamed [.mk [] "0" .u16]),
  .mk [] "Rect" (.named [.mk [] "w" .u8, .mk [] "h" .u8])]

/-- `struct Record { id: u32, #[serde(skip)] cache: char, shapes: Vec<Shape>, names:
BTreeMap<String, Option<i16>> }` -/
def recordTy : RTy := .struct "Record" (.named [.mk [] "id" .u32, .mk [skipAttr] "cache" .foreign,
  .mk [docAttr] "shapes" (.vec shapeTy), .mk [] "names" (.btreeMap (.option .i16))])

/-- Its header. -/
def recordHeader : Header := .tuple [.uint32,
  .array (.enum [.unit, .uint16, .tuple [.uint8, .uint8]]), .map (.optional .int16)]

/-- One of its values. -/
def recordVal : Carrier recordTy := (70000, .char 'x',
  [.inl (), .inr (.inl (300, ())), .inr (.inr (.inl (3, 4, ())))],
  [("a", none), ("b", some (-2))], ())

theorem shape_described : Describes shapeTy (.enum [.unit, .uint16, .tuple [.uint8, .uint8]]) :=
  .enum _ _ _ (by decide)
    (.cons _ _ _ _ .none (.cons _ _ _ _ (.one _ _ .u16) (.cons _ _ _ _
      (.many _ _ (by decide) (.cons _ _ _ _ .u8 (.cons _ _ _ _ .u8 .nil))) .nil)))

theorem record_described : Describes recordTy recordHeader := by
  have h : serializedTypes (declared (.named [.mk [] "id" .u32, .mk [skipAttr] "cache" .foreign,
      .mk [docAttr] "shapes" (.vec shapeTy), .mk [] "names" (.btreeMap (.option .i16))])) =
      [.u32, .vec shapeTy, .btreeMap (.option .i16)] := rfl
  exact .struct _ _ _ (by decide) (by
    rw [h]
    exact .cons _ _ _ _ .u32 (.cons _ _ _ _ (.vec _ _ shape_described) (.cons _ _ _ _
      (.btreeMap _ _ (.option _ _ .i16)) .nil)))

theorem record_countable : Countable recordHeader := by
  simp [recordHeader, Countable, AllCountable]

/-- `T::serialize_header` compiles and writes the bytes of the header `h`. The
header that describes `T` (there is at most one) is required to have no more than
65535 members at any level, as beyond that the written count is wrong: C55. -/
def Announces (T : RTy) (h : Header) : Prop :=
  (∃ p, serializeHeader T = .ok p ∧ p.exec = (headerWire h, .ok ())) ∧ Countable h ∧
    ∀ h', Describes T h' → Countable h'

theorem announces_iff (T : RTy) (h : Header) : Announces T h ↔ Describes T h ∧ Countable h := by
  constructor
  · rintro ⟨⟨p, hp, hx⟩, hc, hall⟩
    obtain ⟨k, hk⟩ := described T p hp
    obtain ⟨q, hq, hy⟩ := writes_header T k hk
    rw [hp] at hq
    cases hq
    have hkc := hall k hk
    rw [hy hkc] at hx
    have := C31_unambiguous k h (headerWire k) (headerWire h) [] []
      (Header.headerBytes_wire _ hkc) (Header.headerBytes_wire _ hc) (by rw [(Prod.mk.inj hx).1])
    exact ⟨this.1 ▸ hk, hc⟩
  · rintro ⟨hd, hc⟩
    obtain ⟨p, hp, hx⟩ := writes_header T h hd
    exact ⟨⟨p, hp, hx hc⟩, hc, fun k hk => describes_unique hd hk ▸ hc⟩

theorem record_announced : Announces recordTy recordHeader :=
  (announces_iff _ _).mpr ⟨record_described, record_countable⟩

/-! ## C34 headers of types -/

/-- A type is given exactly the bytes of the header that describes it; the
decoder recovers that header and leaves what follows. -/
theorem C34_header (T : RTy) (h : Header) (hT : Describes T h) (hc : Countable h) (t : Target)
    (size d : Nat) (hmem : 65535 * size ≤ t.memLimit) (hptr : 65535 * size ≤ t.isizeMax)
    (hd : depth h ≤ d) :
    ∃ p, serializeHeader T = .ok p ∧ p.exec = h.toVec ∧ p.exec.2 = .ok () ∧
      ∀ rest, Prog.run t (Header.deserialize size d) (p.exec.1 ++ rest) = .ok (h, rest) := by
  obtain ⟨p, hp, hx⟩ := writes_header T h hT
  refine ⟨p, hp, ?_, ?_, fun rest => ?_⟩
  · rw [hx hc, C30_encoding h hc]
  · rw [hx hc]
  · obtain ⟨enc, h1, h2⟩ := C30_roundtrip t size d hmem hptr h hc hd
    rw [C30_encoding h hc] at h1
    cases h1
    rw [hx hc]
    exact h2 rest

/-- Every type built from scalars, big numbers, strings, binaries, `Option`,
`Vec`, maps, tuples of 1 to 16 members, dates and timestamps has such a header, and
only one. -/
theorem C34_total (T : RTy) (hb : BuiltIn T) :
    ∃ h, Describes T h ∧ Countable h ∧ ∀ h', Describes T h' → h' = h := by
  obtain ⟨h, hd, hc⟩ := builtIn_described T hb
  exact ⟨h, hd, hc, fun h' hd' => describes_unique hd' hd⟩

/-- The tuple of 17 members has no header. -/
theorem C34_tuple_limit (Ts : List RTy) (h : Ts.length = 0 ∨ 16 < Ts.length) :
    serializeHeader (.tuple Ts) = .error .noImpl := by
  rw [serializeHeader, if_neg (by omega)]

example : BuiltIn (.vec (.tuple [.option .u8, .btreeMap .string, .timeDate])) := by
  simp [BuiltIn, typeParts, typePartsAll, BuiltInPart]

/-! ## C55 derived structs -/

/-- `derive(SerializeHeader)` on a struct writes the tuple header of the headers
of the fields that are not skipped, in declaration order. -/
theorem C55_struct (name : String) (fields : RFields) (hs : List Header)
    (hcond : ∀ f ∈ declared fields, ¬ Conditional (fieldAttrs f))
    (hlen : hs.length = (serializedTypes (declared fields)).length)
    (hget : ∀ (i : Nat) (T : RTy) (h : Header), (serializedTypes (declared fields))[i]? = some T →
      hs[i]? = some h → Describes T h)
    (hc : AllCountable hs) (hn : (serializedTypes (declared fields)).length < 65536) :
    ∃ p, serializeHeader (.struct name fields) = .ok p ∧ p.exec = (Header.tuple hs).toVec ∧
      p.exec.2 = .ok () := by
  have hall : ∀ (Ts : List RTy) (hs : List Header), hs.length = Ts.length →
      (∀ (i : Nat) (T : RTy) (h : Header), Ts[i]? = some T → hs[i]? = some h → Describes T h) →
      DescribesAll Ts hs := by
    intro Ts
    induction Ts with
    | nil =>
      intro hs hl _
      rw [List.length_nil, List.length_eq_zero_iff] at hl
      subst hl; exact .nil
    | cons T Ts ih =>
      intro hs hl hg
      cases hs with
      | nil => simp at hl
      | cons k hs =>
        exact .cons _ _ _ _ (hg 0 T k rfl rfl) (ih hs (by simpa using hl) fun i U k hi hk =>
          hg (i + 1) U k (by simpa using hi) (by simpa using hk))
  have hd : Describes (.struct name fields) (.tuple hs) :=
    .struct _ _ _ hcond (hall _ _ hlen hget)
  have hcc : Countable (.tuple hs) := by rw [Countable]; exact ⟨by omega, hc⟩
  obtain ⟨p, hp, hx⟩ := writes_header _ _ hd
  exact ⟨p, hp, by rw [hx hcc, C30_encoding _ hcc], by rw [hx hcc]⟩

/-- The derive is accepted exactly for the types that have a describing header. -/
theorem C55_accepted (T : RTy) :
    (∃ p, serializeHeader T = .ok p) ↔ ∃ h, Describes T h :=
  ⟨fun ⟨p, hp⟩ => described T p hp, fun ⟨h, hd⟩ => (writes_header T h hd).imp fun _ => And.left⟩

/-- A struct with a field with `skip_serializing_if` is rejected at compile time. -/
theorem C55_conditional (name : String) (fields : RFields) (f : RField)
    (hf : f ∈ declared fields) (hc : Conditional (fieldAttrs f)) :
    ∃ e, serializeHeader (.struct name fields) = .error e := by
  cases h : serializeHeader (.struct name fields) with
  | error e => exact ⟨e, rfl⟩
  | ok p =>
    obtain ⟨k, hk⟩ := described _ p h
    cases hk with
    | struct _ _ hs h1 _ => exact absurd hc (h1 f hf)

/-- Unions are rejected by the macro, and a type that does not implement
`SerializeHeader` by the compiler. -/
theorem C55_union (name : String) : serializeHeader (.union name) = .error .union ∧
    serializeHeader .foreign = .error .noImpl := by
  rw [serializeHeader, serializeHeader]; exact ⟨rfl, rfl⟩

/-- The limit of 65535 fields is not enforced: beyond it the count is written
modulo 65536, and the decoder takes that many fields for the header and leaves
the others in the input. -/
theorem C55_overflow (name : String) (fields : RFields) (hs : List Header)
    (hcond : ∀ f ∈ declared fields, ¬ Conditional (fieldAttrs f))
    (hd : DescribesAll (serializedTypes (declared fields)) hs) (hc : AllCountable hs)
    (t : Target) (size d : Nat) (hmem : 65535 * size ≤ t.memLimit)
    (hptr : 65535 * size ≤ t.isizeMax) (hdep : depth (.tuple hs) ≤ d) :
    ∃ p bs, serializeHeader (.struct name fields) = .ok p ∧ p.exec = (bs, .ok ()) ∧
      Prog.run t (Header.deserialize size d) bs =
        .ok (.tuple (hs.take (hs.length % 65536)), headersWire (hs.drop (hs.length % 65536))) := by
  obtain ⟨p, hp, hx⟩ := writes_struct_any name fields hs hcond hd hc
  refine ⟨p, _, hp, hx, ?_⟩
  have hl : (hs.take (hs.length % 65536)).length = hs.length % 65536 := by
    rw [List.length_take]; have := Nat.mod_le hs.length 65536; omega
  have hsplit : ∀ (xs ys : List Header), headersWire (xs ++ ys) = headersWire xs ++ headersWire ys := by
    intro xs ys
    induction xs with
    | nil => simp [headersWire]
    | cons x xs ih => simp [headersWire, ih]
  have hcount : ∀ (xs ys : List Header), AllCountable (xs ++ ys) → AllCountable xs := by
    intro xs ys
    induction xs with
    | nil => intro _; trivial
    | cons x xs ih => intro h; rw [List.cons_append, AllCountable] at h; rw [AllCountable]; exact ⟨h.1, ih h.2⟩
  have hdepth : ∀ (xs ys : List Header), depthAll xs ≤ depthAll (xs ++ ys) := by
    intro xs ys
    induction xs with
    | nil => simp [depthAll]
    | cons x xs ih => simp only [List.cons_append, depthAll]; omega
  have hwire : 21 :: (varint 16 (hs.length % 65536) ++ headersWire hs) =
      headerWire (.tuple (hs.take (hs.length % 65536))) ++ headersWire (hs.drop (hs.length % 65536)) := by
    rw [headerWire, hl, List.cons_append, List.append_assoc, ← hsplit, List.take_append_drop]
  have hc' : Countable (.tuple (hs.take (hs.length % 65536))) := by
    rw [Countable, hl]
    refine ⟨Nat.mod_lt _ (by decide), hcount _ (hs.drop (hs.length % 65536)) ?_⟩
    rw [List.take_append_drop]; exact hc
  have hd' : depth (.tuple (hs.take (hs.length % 65536))) ≤ d := by
    have := hdepth (hs.take (hs.length % 65536)) (hs.drop (hs.length % 65536))
    rw [List.take_append_drop] at this
    rw [depth] at hdep ⊢
    omega
  rw [hwire]
  exact Header.exec_grammar ⟨hmem, hptr⟩ .eof _ _ (Header.headerBytes_wire _ hc') d hd' _

example : Describes recordTy recordHeader ∧ Countable recordHeader ∧ depth recordHeader ≤ 5 :=
  ⟨record_described, record_countable, by decide +kernel⟩

example : Conditional (fieldAttrs (.mk [docAttr, skipIfAttr] "x" (.option .u8))) := by decide

/-- A struct of 65537 unit fields: its header decodes as that of a struct with
one. -/
example : ∃ p bs, serializeHeader (.struct "Big" (.unnamed (List.replicate 65537 (.mk [] "" .unit))))
      = .ok p ∧ p.exec = (bs, .ok ()) ∧
    Prog.run ⟨.w64, 2 ^ 40⟩ (Header.deserialize 56 2) bs =
      .ok (.tuple [.unit], headersWire (List.replicate 65536 .unit)) := by
  have h1 : ∀ n, serializedTypes (List.replicate n (.mk [] "" .unit)) = List.replicate n .unit := by
    intro n
    induction n with
    | zero => rfl
    | succ n ih => rw [List.replicate_succ, serializedTypes_keep (by decide), ih]; rfl
  have h2 : ∀ n, DescribesAll (List.replicate n .unit) (List.replicate n .unit) := by
    intro n
    induction n with
    | zero => exact .nil
    | succ n ih => exact .cons _ _ _ _ .unit ih
  have h3 : ∀ n, AllCountable (List.replicate n .unit) := by
    intro n
    induction n with
    | zero => trivial
    | succ n ih => rw [List.replicate_succ, AllCountable]; exact ⟨trivial, ih⟩
  have h4 : ∀ n, depthAll (List.replicate n .unit) ≤ 1 := by
    intro n
    induction n with
    | zero => simp [depthAll]
    | succ n ih => simp only [List.replicate_succ, depthAll, depth]; omega
  have := C55_overflow "Big" (.unnamed (List.replicate 65537 (.mk [] "" .unit)))
    (List.replicate 65537 .unit) (by
      intro f hf
      rw [(List.mem_replicate.mp hf).2]; decide) (by rw [declared, h1]; exact h2 _) (h3 _)
    ⟨.w64, 2 ^ 40⟩ 56 2 (by decide) (by decide) (by rw [depth]; have := h4 65537; omega)
  rwa [List.length_replicate, List.take_replicate, List.drop_replicate] at this

/-! ## C56 derived enums -/

/-- `derive(SerializeHeader)` on an enum without skipped variants writes the
enum header whose `i`-th member describes the fields of variant `i`: the unit
header, the header of the only field, or the tuple of the headers. -/
theorem C56_enum (name : String) (vs : List RVariant) (hs : List Header)
    (hcond : ∀ v ∈ vs, ¬ Conditional (variantAttrs v) ∧ ¬ Skipped (variantAttrs v))
    (hlen : hs.length = vs.length)
    (hget : ∀ (i : Nat) (v : RVariant) (h : Header), vs[i]? = some v → hs[i]? = some h →
      DescribesPayload ((Spec.variantFields v).map fieldType) h)
    (hc : AllCountable hs) (hn : vs.length < 65536) :
    ∃ p, serializeHeader (.enum name vs) = .ok p ∧ p.exec = (Header.enum hs).toVec ∧
      p.exec.2 = .ok () := by
  have hf : (vs.filter fun v => ¬ Skipped (variantAttrs v)) = vs :=
    List.filter_eq_self.mpr fun v hv => decide_eq_true (hcond v hv).2
  have hd : Describes (.enum name vs) (.enum hs) := by
    refine .enum _ _ _ (fun v hv => (hcond v hv).1) ?_
    rw [hf]
    refine payloads_of_get (by rw [List.length_map]; exact hlen) fun i Ts k hi hk => ?_
    rw [List.getElem?_map] at hi
    cases hv : vs[i]? with
    | none => rw [hv] at hi; cases hi
    | some v => rw [hv] at hi; cases hi; exact hget i v k hv hk
  have hcc : Countable (.enum hs) := by rw [Countable]; exact ⟨by omega, hc⟩
  obtain ⟨p, hp, hx⟩ := writes_header _ _ hd
  exact ⟨p, hp, by rw [hx hcc, C30_encoding _ hcc], by rw [hx hcc]⟩

/-- An enum with a variant with `skip_serializing_if` is rejected at compile
time. -/
theorem C56_conditional (name : String) (vs : List RVariant) (v : RVariant)
    (hv : v ∈ vs) (hc : Conditional (variantAttrs v)) :
    ∃ e, serializeHeader (.enum name vs) = .error e := by
  cases h : serializeHeader (.enum name vs) with
  | error e => exact ⟨e, rfl⟩
  | ok p =>
    obtain ⟨k, hk⟩ := described _ p h
    cases hk with
    | enum _ _ hs h1 _ => exact absurd hc (h1 v hv)

example : DescribesPayload ((Spec.variantFields
    (.mk [] "Rect" (.named [.mk [] "w" .u8, .mk [] "h" .u8]))).map fieldType)
    (.tuple [.uint8, .uint8]) :=
  .many _ _ (by decide) (.cons _ _ _ _ .u8 (.cons _ _ _ _ .u8 .nil))

/-! ## C38, C57 typed and dynamic views -/

/-- The bytes of a value decode under the header that its type writes, leaving what
follows, to a body that mirrors the value and is valid for the header; that body
serializes to the same bytes unless a `HashMap` is involved. -/
theorem C38_agree (t : Target) (hm : 4096 ≤ t.memLimit) (mode : BuildMode) (size : Nat) (T : RTy)
    (h : Header) (hT : Announces T h) (hp : Plain T) (v : Carrier T)
    (hr : Real t T v) (hd : DatesRebase mode T v) (hf : MemoryFits t size h T v) :
    ∃ b bs, (ser mode T v).exec = (bs, .ok ()) ∧ Mirrors T v b ∧ Body.validate h b = true ∧
      (∀ rest, Prog.run t (Body.de t mode size h) (bs ++ rest) = .ok (b, rest)) ∧
      (NoHashMap T → Body.toVec mode b = (bs, .ok ())) := by
  obtain ⟨hT, hc⟩ := (announces_iff T h).mp hT
  obtain ⟨b, bs, hM, ha⟩ := agree (N := False) (D := False) t mode size hm T h hT hc hp hf.1 v
    fun p hpp => ⟨hr p hpp, fun U vs he => hf.2 U vs (he ▸ hpp),
      fun hmode d he => hd hmode d (he ▸ hpp), nofun, nofun, nofun, nofun⟩
  refine ⟨b, bs, ha.bytes, hM, ?_, fun rest => ha.decodes .eof rest, ha.again⟩
  have := ha.decodes .eof []
  exact (Body.validate_iff h b).mpr (Body.returns_conforms t mode size h .eof _ _ _ this)

/-- All types built from those with a header of their own are plain. -/
theorem C38_builtin (T : RTy) (hb : BuiltIn T) : Plain T := by
  intro U hU
  have := hb U hU
  cases U <;> first | trivial | exact this.elim

/-- Values of `HashMap` type are written in iteration order but read back as an
ordered map, so re-serializing may give other bytes. -/
theorem C38_hashmap (t : Target) (hm : 4096 ≤ t.memLimit) (mode : BuildMode) (size : Nat) :
    Announces (.hashMap .u8) (.map .uint8) ∧
    ∃ (v : Carrier (.hashMap .u8)) (b : Body) (bs : List UInt8), Real t (.hashMap .u8) v ∧
      (ser mode (.hashMap .u8) v).exec = (bs, .ok ()) ∧ Mirrors (.hashMap .u8) v b ∧
      (∀ rest, Prog.run t (Body.de t mode size (.map .uint8)) (bs ++ rest) = .ok (b, rest)) ∧
      Body.toVec mode b ≠ (bs, .ok ()) := by
  have hA : Announces (.hashMap .u8) (.map .uint8) :=
    (announces_iff _ _).mpr ⟨.hashMap _ _ .u8, trivial⟩
  have hb : 2 < 2 ^ t.ptr.bits := by cases t.ptr <;> decide
  have hr : Real t (.hashMap .u8) [("b", 1), ("a", 2)] := by
    intro p hp
    simp [valueParts] at hp
    have h1 : (utf8 "a").length = 1 := by decide
    have h2 : (utf8 "b").length = 1 := by decide
    rcases hp with rfl | rfl | rfl
    · have : 1 < 2 ^ t.ptr.bits := by omega
      simp [RealPart, h1, h2, hb, this]
    · trivial
    · trivial
  obtain ⟨b, bs, h1, h2, -, h4, -⟩ := C38_agree t hm mode size (.hashMap .u8) (.map .uint8)
    hA (C38_builtin _ (by simp [BuiltIn, typeParts, BuiltInPart]))
    [("b", 1), ("a", 2)] hr (by intro _ d hd; simp [valueParts] at hd)
    ⟨by simp [headerParts], by simp [valueParts]⟩
  refine ⟨hA, _, b, bs, hr, h1, h2, h4, ?_⟩
  simp only [Mirrors] at h2
  obtain ⟨cs, cs', rfl, hasc, hperm, hpt⟩ := h2
  have hb1 : bs = [2, 1, 98, 1, 1, 97, 2] := by
    have : (ser mode (.hashMap .u8) [("b", 1), ("a", 2)]).exec =
        ([2, 1, 98, 1, 1, 97, 2], .ok ()) := by
      simp only [ser, serMap]
      decide +kernel
    rw [this] at h1
    exact (Prod.mk.inj h1).1.symm
  intro hx
  rw [hb1] at hx
  match cs', hpt with
  | [(k1, c1), (k2, c2)], hpt =>
    simp only [Pointwise] at hpt
    obtain ⟨⟨e1, e2⟩, ⟨e3, e4⟩, -⟩ := hpt
    subst e1 e2 e3 e4
    have hl := hperm.length_eq
    match cs, hl with
    | [x, y], _ =>
      simp only [Ascending, List.pairwise_cons, List.mem_cons, List.not_mem_nil, or_false,
        forall_eq] at hasc
      have hxm := hperm.mem_iff (a := x)
      have hym := hperm.mem_iff (a := y)
      simp only [List.mem_cons, true_or, or_true, List.not_mem_nil, or_false, true_iff] at hxm hym
      have n1 : ¬ utf8 "b" < utf8 "a" := by decide
      have n2 : ¬ utf8 "b" < utf8 "b" := by decide
      have n3 : ¬ utf8 "a" < utf8 "a" := by decide
      rcases hxm with rfl | rfl <;> rcases hym with rfl | rfl
      · exact n2 hasc.1
      · exact n1 hasc.1
      · have : Body.toVec mode (.map [("a", .uint8 2), ("b", .uint8 1)]) =
            ([2, 1, 97, 2, 1, 98, 1], .ok ()) := by
          simp only [Body.toVec, Body.ser, Body.serEntries]
          decide +kernel
        rw [this] at hx
        simp at hx
      · exact n3 hasc.1

/-- The whole pipeline for a derived type: the bytes written by
`T::serialize_header` followed by those of a value decode to the header and then
under it to a body that mirrors the value. -/
theorem C57_pipeline (t : Target) (hm : 4096 ≤ t.memLimit) (mode : BuildMode) (size hsize d : Nat)
    (hmem : 65535 * hsize ≤ t.memLimit) (hptr : 65535 * hsize ≤ t.isizeMax) (T : RTy)
    (p : WProg IoErr) (hT : serializeHeader T = .ok p) (hp : Plain T)
    (hc : ∀ h, Describes T h → Countable h ∧ depth h ≤ d) (v : Carrier T) (hr : Real t T v)
    (hd : DatesRebase mode T v) (hf : ∀ h, Describes T h → MemoryFits t size h T v) :
    ∃ hbs h bs b, p.exec = (hbs, .ok ()) ∧ (ser mode T v).exec = (bs, .ok ()) ∧
      Describes T h ∧ Mirrors T v b ∧
      Prog.run t (Header.deserialize hsize d) (hbs ++ bs) = .ok (h, bs) ∧
      Prog.run t (Body.de t mode size h) bs = .ok (b, []) := by
  obtain ⟨h, hh⟩ := described T p hT
  obtain ⟨hc, hdep⟩ := hc h hh
  obtain ⟨q, hq, hx, hok, hrun⟩ := C34_header T h hh hc t hsize d hmem hptr hdep
  rw [hT] at hq
  cases hq
  obtain ⟨b, bs, h1, h2, -, h4, -⟩ := C38_agree t hm mode size T h
    ((announces_iff T h).mpr ⟨hh, hc⟩) hp v hr hd (hf h hh)
  refine ⟨p.exec.1, h, bs, b, by rw [← hok], h1, hh, h2, hrun bs, ?_⟩
  have := h4 []
  rwa [List.append_nil] at this

theorem record_parts : valueParts recordTy recordVal = [⟨recordTy, recordVal⟩, ⟨.u32, (70000 : UInt32)⟩,
    ⟨.vec shapeTy, [.inl (), .inr (.inl (300, ())), .inr (.inr (.inl (3, 4, ())))]⟩,
    ⟨shapeTy, .inl ()⟩, ⟨shapeTy, .inr (.inl (300, ()))⟩, ⟨.u16, (300 : UInt16)⟩,
    ⟨shapeTy, .inr (.inr (.inl (3, 4, ())))⟩, ⟨.u8, (3 : UInt8)⟩, ⟨.u8, (4 : UInt8)⟩,
    ⟨.btreeMap (.option .i16), [("a", none), ("b", some (-2))]⟩,
    ⟨.option .i16, none⟩, ⟨.option .i16, some (-2)⟩, ⟨.i16, (-2 : Int16)⟩] := by
  have h1 : ¬ Skipped [] := by decide
  have h2 : Skipped [skipAttr] := by decide
  have h3 : ¬ Skipped [docAttr] := by decide
  simp [recordTy, recordVal, shapeTy, valueParts, valuePartsFields, valuePartsVariant, h1, h2, h3]

/-- The sample value meets the hypotheses on every target with enough memory. -/
theorem record_meets (t : Target) (mode : BuildMode) (size : Nat)
    (h : t.allocate (3 * size) = none) :
    Plain recordTy ∧ Real t recordTy recordVal ∧ DatesRebase mode recordTy recordVal ∧
      MemoryFits t size recordHeader recordTy recordVal := by
  have hb : 3 < 2 ^ t.ptr.bits := by cases t.ptr <;> decide
  have hb1 : 1 < 2 ^ t.ptr.bits := by omega
  have hb2 : 2 < 2 ^ t.ptr.bits := by omega
  have hsmall : ∀ n, n ≤ 3 → t.allocate (n * size) = none := by
    intro n hn
    have : n * size ≤ 3 * size := Nat.mul_le_mul_right _ hn
    simp only [Target.allocate] at h ⊢
    split at h
    · cases h
    · split at h
      · cases h
      · rw [if_neg (by omega), if_neg (by omega)]
  refine ⟨?_, ?_, ?_, ?_, ?_⟩
  · intro U hU
    have h1 : ¬ Skipped [] := by decide
    have h2 : Skipped [skipAttr] := by decide
    have h3 : ¬ Skipped [docAttr] := by decide
    have h4 : ¬ Conditional [] := by decide
    simp [recordTy, shapeTy, typeParts, typePartsFields, typePartsVariants, h1, h2, h3] at hU
    rcases hU with rfl | rfl | rfl | rfl | rfl | rfl | rfl | rfl | rfl | rfl <;>
      simp [PlainPart, Spec.variantFields, variantAttrs, fieldAttrs, declared, h1, h3, h4]
  · intro p hp
    rw [record_parts] at hp
    simp only [List.mem_cons, List.not_mem_nil, or_false] at hp
    have h1 : (utf8 "a").length = 1 := by decide
    have h2 : (utf8 "b").length = 1 := by decide
    have h3 : utf8 "a" < utf8 "b" := by decide
    rcases hp with rfl | rfl | rfl | rfl | rfl | rfl | rfl | rfl | rfl | rfl | rfl | rfl | rfl <;>
      simp [RealPart, recordTy, shapeTy, h1, h2, h3, hb, hb1, hb2]
  · intro _ d hd
    rw [record_parts] at hd
    simp only [List.mem_cons, List.not_mem_nil, or_false] at hd
    rcases hd with h | h | h | h | h | h | h | h | h | h | h | h | h <;>
      exact RTy.noConfusion (congrArg Sigma.fst h)
  · intro hs hh
    simp [recordHeader, headerParts, headersParts] at hh
    rcases hh with rfl | rfl <;> exact hsmall _ (by decide)
  · intro U vs hv
    rw [record_parts] at hv
    simp only [List.mem_cons, List.not_mem_nil, or_false] at hv
    rcases hv with h | h | h | h | h | h | h | h | h | h | h | h | h <;>
      first
        | exact RTy.noConfusion (congrArg Sigma.fst h)
        | (cases h; exact hsmall _ (by decide))

/-- Its bytes. -/
example : (ser .debug recordTy recordVal).exec =
    (varint 32 70000 ++
      [3, 0, 1] ++ varint 16 300 ++ [2, 3, 4] ++ [2, 1, 97, 0, 1, 98, 1, 3], .ok ()) := by
  have h1 : serdeSkips [] = false := by decide
  have h2 : serdeSkips [skipAttr] = true := by decide
  have h3 : serdeSkips [docAttr] = false := by decide
  simp only [recordTy, recordVal, shapeTy, ser, serFields, serSeq, serMap, serVariant, h1, h2, h3]
  decide +kernel

/-! ## C58 skipped variants -/

/-- The index on the wire is the position among all variants, and decoding picks
the header member at that index. -/
theorem C58_index (t : Target) (mode : BuildMode) (size : Nat) (name : String)
    (vs : List RVariant) (v : Carrier (.enum name vs)) (bs : List UInt8)
    (hn : vs.length ≤ 2 ^ 32) (hx : (ser mode (.enum name vs) v).exec = (bs, .ok ())) :
    ∃ payload, bs = varint 32 (variantPosition vs v) ++ payload ∧
      ∀ hs rest, Prog.run t (Body.de t mode size (.enum hs)) (bs ++ rest) =
        match hs[variantPosition vs v]? with
        | none => .err .read
        | some h => match Prog.run t (Body.de t mode size h) (payload ++ rest) with
          | .ok (b, r) => .ok (.enum (UInt32.ofNat (variantPosition vs v)) b, r)
          | .err e => .err e
          | .panic w => .panic w := by
  rw [ser] at hx
  have hlt := position_lt vs v
  obtain ⟨-, payload, hp⟩ := exec_serVariant mode name vs v 0 bs (by omega) hx
  rw [Nat.zero_add] at hp
  refine ⟨payload, hp, fun hs rest => ?_⟩
  have hto : (UInt32.ofNat (variantPosition vs v)).toNat = variantPosition vs v := by
    rw [UInt32.toNat_ofNat']; omega
  have hnth : ∀ (hs : List Header) (n : Nat), Body.deNth t mode size n hs =
      match hs[n]? with
      | none => .done (.err .read)
      | some h => Body.de t mode size h := by
    intro hs
    induction hs with
    | nil => intro n; cases n <;> rw [Body.deNth] <;> rfl
    | cons h hs ih =>
      intro n
      cases n with
      | zero => rw [Body.deNth]; rfl
      | succ n => rw [Body.deNth, ih, List.getElem?_cons_succ]
  rw [hp, Prog.run, Body.de, Prog.bind_eq, Prog.exec_bind, List.append_assoc, De.deU32,
    De.exec_u32_varint _ _ _ (by omega)]
  rw [Prog.next_ok, hto, hnth, Prog.bind_eq, Prog.exec_bind]
  cases hs[variantPosition vs v]? with
  | none => rfl
  | some h =>
    simp only [Prog.run]
    cases Prog.exec t .eof (Body.de t mode size h) (payload ++ rest) with
    | ok r => obtain ⟨b, r⟩ := r; rfl
    | err e => rfl
    | panic w => rfl

/-- The header member that describes a kept variant sits at the number of kept
variants before it. -/
theorem C58_member (name : String) (vs : List RVariant) (hs : List Header)
    (hT : Announces (.enum name vs) (.enum hs)) (n : Nat) (w : RVariant) (hw : vs[n]? = some w)
    (hk : ¬ Skipped (variantAttrs w)) :
    ∃ h, hs[keptCount (vs.take n)]? = some h ∧
      DescribesPayload ((Spec.variantFields w).map fieldType) h := by
  cases ((announces_iff _ _).mp hT).1 with
  | enum _ _ _ _ hd =>
    refine payloads_get hd ?_
    rw [List.getElem?_map, kept_get vs n w hw hk]
    rfl

/-- With a skipped variant before it the member is not at the index on the
wire: it lies strictly before. -/
theorem C58_shift (vs : List RVariant) (n : Nat) (hn : n ≤ vs.length)
    (hs : ∃ w ∈ vs.take n, Skipped (variantAttrs w)) : keptCount (vs.take n) < n := by
  have := keptCount_lt hs
  rw [List.length_take] at this
  omega

/-- If moreover all later variants are skipped, or there are none, then no value
of the variant can be decoded under the derived header: it always fails. -/
theorem C58_last_fails (t : Target) (mode : BuildMode) (size : Nat) (name : String)
    (vs : List RVariant) (hs : List Header) (hT : Announces (.enum name vs) (.enum hs))
    (hn : vs.length ≤ 2 ^ 32) (v : Carrier (.enum name vs)) (bs : List UInt8)
    (hx : (ser mode (.enum name vs) v).exec = (bs, .ok ()))
    (hbefore : ∃ w ∈ vs.take (variantPosition vs v), Skipped (variantAttrs w))
    (hafter : ∀ w ∈ vs.drop (variantPosition vs v + 1), Skipped (variantAttrs w))
    (rest : List UInt8) :
    Prog.run t (Body.de t mode size (.enum hs)) (bs ++ rest) = .err .read := by
  obtain ⟨payload, -, hrun⟩ := C58_index t mode size name vs v bs hn hx
  have hlt := position_lt vs v
  have hlen : hs.length = keptCount vs := by
    cases ((announces_iff _ _).mp hT).1 with
    | enum _ _ _ _ hd => rw [payloads_length hd, List.length_map, keptCount]
  have hsh := C58_shift vs _ (Nat.le_of_lt hlt) hbefore
  have hsplit : keptCount vs = keptCount (vs.take (variantPosition vs v)) +
      (keptCount [vs[variantPosition vs v]] + keptCount (vs.drop (variantPosition vs v + 1))) := by
    rw [← keptCount_append, List.singleton_append, ← List.drop_eq_getElem_cons hlt,
      ← keptCount_append, List.take_append_drop]
  rw [keptCount_zero hafter] at hsplit
  have h1 := keptCount_le [vs[variantPosition vs v]]
  rw [List.length_singleton] at h1
  rw [hrun, List.getElem?_eq_none (by omega)]

/-- `enum E { #[serde(skip)] A, B(u8), C(u16) }` -/
def skippedTy : RTy := .enum "E" [.mk [skipAttr] "A" .unit,
  .mk [] "B" (.unnamed [.mk [] "0" .u8]), .mk [] "C" (.unnamed [.mk [] "0" .u16])]

theorem skipped_described : Describes skippedTy (.enum [.uint8, .uint16]) := by
  refine .enum _ _ _ (by decide) ?_
  have : (([.mk [skipAttr] "A" .unit, .mk [] "B" (.unnamed [.mk [] "0" .u8]),
      .mk [] "C" (.unnamed [.mk [] "0" .u16])] : List RVariant).filter
        fun v => ¬ Skipped (variantAttrs v)).map (fun v => (Spec.variantFields v).map fieldType) =
      [[.u8], [.u16]] := rfl
  rw [this]
  exact .cons _ _ _ _ (.one _ _ .u8) (.cons _ _ _ _ (.one _ _ .u16) .nil)

theorem skipped_announced : Announces skippedTy (.enum [.uint8, .uint16]) :=
  (announces_iff _ _).mpr ⟨skipped_described, by simp [Countable, AllCountable]⟩

/-- The type writes a header with two members. `B(5)` is written as variant 1 and read, under the derived header, with the
header member of `C`. -/
theorem C58_witness (t : Target) (mode : BuildMode) (size : Nat) :
    Announces skippedTy (.enum [.uint8, .uint16]) ∧
    ∃ bs, (ser mode skippedTy (.inr (.inl (5, ())))).exec = (bs, .ok ()) ∧
      Prog.run t (Body.de t mode size (.enum [.uint8, .uint16])) bs =
        .ok (.enum 1 (.uint16 5), []) := by
  have h1 : serdeSkips [] = false := by decide
  have hx : (ser mode skippedTy (.inr (.inl (5, ())))).exec = ([1, 5], .ok ()) := by
    simp only [skippedTy, ser, serVariant, serFields, h1]
    decide +kernel
  refine ⟨skipped_announced, _, hx, ?_⟩
  obtain ⟨payload, hp, hrun⟩ := C58_index t mode size _ _ _ _ (by decide) hx
  have hv : varint 32 1 = [1] := by decide +kernel
  have : varint 32 1 ++ payload = [1, 5] := hp.symm
  rw [hv] at this
  simp only [List.singleton_append, List.cons.injEq, true_and] at this
  subst this
  have := hrun [.uint8, .uint16] []
  rw [List.append_nil] at this
  rw [this]
  have hde : Prog.run t (Body.de t mode size .uint16) ([5] ++ []) = .ok (.uint16 5, []) := by
    have hv : varint 16 5 = [5] := by decide +kernel
    rw [Prog.run, Body.de, ← hv]
    exact De.exec_wrap t .eof _ _ _ _ _ (De.exec_u16_varint t .eof 5 (by decide) [])
  simp only [variantPosition, List.getElem?_cons_succ, List.getElem?_cons_zero, hde]
  rfl

/-- `C(5)` cannot be decoded. -/
example (t : Target) (mode : BuildMode) (size : Nat) (bs : List UInt8)
    (hx : (ser mode skippedTy (.inr (.inr (.inl (5, ()))))).exec = (bs, .ok ())) (rest : List UInt8) :
    Prog.run t (Body.de t mode size (.enum [.uint8, .uint16])) (bs ++ rest) = .err .read :=
  C58_last_fails t mode size _ _ _ skipped_announced (by decide) _ bs hx
    ⟨_, List.mem_cons_self, by decide⟩ (by simp [variantPosition]) rest

example : (ser .debug skippedTy (.inr (.inr (.inl (5, ()))))).exec = ([2, 5], .ok ()) := by
  have h1 : serdeSkips [] = false := by decide
  simp only [skippedTy, ser, serVariant, serFields, h1]
  decide +kernel

/-! ## C69 skipped fields inside variants -/

/-- The derived header lists all fields of a variant: attributes of fields inside
variants make no difference to what is written. -/
theorem C69_ignored (name : String) (vs ws : List RVariant)
    (hlen : vs.length = ws.length)
    (hsame : ∀ (i : Nat) (v w : RVariant), vs[i]? = some v → ws[i]? = some w →
      variantAttrs v = variantAttrs w ∧
      (Spec.variantFields v).map fieldType = (Spec.variantFields w).map fieldType)
    : serializeHeader (.enum name vs) = serializeHeader (.enum name ws) := by
  have hfields : ∀ fs gs : List RField, fs.map fieldType = gs.map fieldType →
      fieldTypes fs = fieldTypes gs := by
    intro fs
    induction fs with
    | nil =>
      intro gs hm
      rw [List.map_nil, eq_comm, List.map_eq_nil_iff] at hm
      rw [hm]
    | cons f fs ih =>
      intro gs hm
      cases gs with
      | nil => simp at hm
      | cons g gs =>
        obtain ⟨fa, fn, F⟩ := f
        obtain ⟨ga, gn, G⟩ := g
        rw [List.map_cons, List.map_cons, List.cons.injEq] at hm
        have h1 : F = G := hm.1
        subst h1
        rw [fieldTypes, fieldTypes, ih gs hm.2]
  have htypes : ∀ fs gs : List RField, fs.map fieldType = gs.map fieldType →
      variantTypes fs = variantTypes gs := by
    intro fs gs hm
    have hf := hfields fs gs hm
    match fs, gs, hm, hf with
    | [], [], _, _ => rfl
    | [_], [_], _, hf => rw [variantTypes, variantTypes, hf]
    | _ :: _ :: fs, _ :: _ :: gs, hm, hf =>
      have := congrArg List.length hm
      simp only [List.length_map] at this
      rw [variantTypes, variantTypes, hf, this]
    | [], _ :: _, hm, _ => simp at hm
    | _ :: _, [], hm, _ => simp at hm
    | [_], _ :: _ :: _, hm, _ => simp at hm
    | _ :: _ :: _, [_], hm, _ => simp at hm
  have hvariant : ∀ F G : RFields, (declared F).map fieldType = (declared G).map fieldType →
      variantFields F = variantFields G := by
    have key : ∀ F : RFields, variantFields F = variantTypes (declared F) := by
      intro F
      cases F <;> rw [variantFields, declared]
      rw [variantTypes]
    intro F G hm
    rw [key, key, htypes _ _ hm]
  have hall : ∀ vs ws : List RVariant, vs.length = ws.length →
      (∀ (i : Nat) (v w : RVariant), vs[i]? = some v → ws[i]? = some w →
        variantAttrs v = variantAttrs w ∧
        (Spec.variantFields v).map fieldType = (Spec.variantFields w).map fieldType) →
      enumVariants vs = enumVariants ws := by
    intro vs
    induction vs with
    | nil =>
      intro ws hl _
      rw [List.length_nil, eq_comm, List.length_eq_zero_iff] at hl
      rw [hl]
    | cons v vs ih =>
      intro ws hl hs
      cases ws with
      | nil => simp at hl
      | cons w ws =>
        have h0 := hs 0 v w rfl rfl
        have hrest := ih ws (by simpa using hl) fun i a b ha hb =>
          hs (i + 1) a b (by simpa using ha) (by simpa using hb)
        obtain ⟨va, vn, F⟩ := v
        obtain ⟨wa, wn, G⟩ := w
        have h1 : va = wa := h0.1
        subst h1
        rw [enumVariants, enumVariants, hrest, hvariant F G h0.2]
  rw [serializeHeader, serializeHeader, hall vs ws hlen hsame]

/-- A skipped field of a variant, named or not, is not written: the value is written as that of
the enum without the field. -/
theorem C69_unwritten (mode : BuildMode) (name vn : String) (attrs : List Attr)
    (pre post : List RField) (f : RField) (hf : Skipped (fieldAttrs f))
    (before vs : List RVariant) (v : FieldCarrier (pre ++ f :: post)) :
    ser mode (.enum name (before ++ .mk attrs vn (.unnamed (pre ++ f :: post)) :: vs))
        (laterVariant before (.inl v)) =
      ser mode (.enum name (before ++ .mk attrs vn (.unnamed (pre ++ post)) :: vs))
        (laterVariant before (.inl (withoutField pre v))) ∧
    ser mode (.enum name (before ++ .mk attrs vn (.named (pre ++ f :: post)) :: vs))
        (laterVariant before (.inl v)) =
      ser mode (.enum name (before ++ .mk attrs vn (.named (pre ++ post)) :: vs))
        (laterVariant before (.inl (withoutField pre v))) := by
  have key : ∀ (pre : List RField) (v : FieldCarrier (pre ++ f :: post)),
      serFields mode (pre ++ f :: post) v = serFields mode (pre ++ post) (withoutField pre v) := by
    intro pre
    induction pre with
    | nil =>
      intro v
      obtain ⟨fa, fn, fT⟩ := f
      obtain ⟨x, v⟩ := v
      show serFields mode (.mk fa fn fT :: post) (x, v) = _
      rw [serFields, if_pos ((serdeSkips_iff fa).mpr hf)]
      rfl
    | cons g pre ih =>
      intro v
      obtain ⟨ga, gn, gT⟩ := g
      obtain ⟨x, v⟩ := v
      show serFields mode (.mk ga gn gT :: (pre ++ f :: post)) (x, v) =
        serFields mode (.mk ga gn gT :: (pre ++ post)) (x, withoutField pre v)
      rw [serFields, serFields, ih v]
  have skip : ∀ (before : List RVariant) (w w' : List RVariant) (x : VariantsCarrier w)
      (x' : VariantsCarrier w') (i : Nat),
      (∀ i, serVariant mode name i w x = serVariant mode name i w' x') →
      serVariant mode name i (before ++ w) (laterVariant before x)
        = serVariant mode name i (before ++ w') (laterVariant before x') := by
    intro before
    induction before with
    | nil => intro w w' x x' i h; exact h i
    | cons b before ih =>
      intro w w' x x' i h
      obtain ⟨ba, bn, bf⟩ := b
      show serVariant mode name i (.mk ba bn bf :: (before ++ w)) (.inr (laterVariant before x))
        = serVariant mode name i (.mk ba bn bf :: (before ++ w')) (.inr (laterVariant before x'))
      rw [serVariant, serVariant]
      exact ih w w' x x' (i + 1) h
  constructor <;> rw [ser, ser] <;> refine skip _ _ _ _ _ _ fun i => ?_ <;>
    rw [serVariant, serVariant] <;> split
  · rfl
  · exact congrArg _ (key pre v)
  · rfl
  · exact congrArg _ (key pre v)

/-- `enum F { A(#[serde(skip)] u8, u16) }` -/
def skippedFieldTy : RTy :=
  .enum "F" [.mk [] "A" (.unnamed [.mk [skipAttr] "0" .u8, .mk [] "1" .u16])]

/-- The macro accepts the type; its header lists both fields; `A(1, 2)` is written
as two bytes, and decoding them under the header of the type fails. -/
theorem C69_witness (t : Target) (mode : BuildMode) (size : Nat) (hmem : 2 * size ≤ t.memLimit)
    (hptr : 2 * size ≤ t.isizeMax) :
    Announces skippedFieldTy (.enum [.tuple [.uint8, .uint16]]) ∧
    (ser mode skippedFieldTy (.inl (1, 2, ()))).exec = ([0, 2], .ok ()) ∧
    Prog.run t (Body.de t mode size (.enum [.tuple [.uint8, .uint16]])) [0, 2] = .err .read := by
  have hx : (ser mode skippedFieldTy (.inl (1, 2, ()))).exec = ([0, 2], .ok ()) := by
    have h1 : serdeSkips [] = false := by decide
    have h2 : serdeSkips [skipAttr] = true := by decide
    simp only [skippedFieldTy, ser, serVariant, serFields, h1, h2]
    decide +kernel
  refine ⟨(announces_iff _ _).mpr ⟨.enum _ _ _ (by decide) (.cons _ _ _ _ (.many _ _ (by decide)
    (.cons _ _ _ _ .u8 (.cons _ _ _ _ .u16 .nil))) .nil), by simp [Countable, AllCountable]⟩,
    hx, ?_⟩
  obtain ⟨payload, hp, hrun⟩ := C58_index t mode size _ _ _ _ (by decide) hx
  have hv : varint 32 0 = [0] := by decide +kernel
  have : varint 32 0 ++ payload = [0, 2] := hp.symm
  rw [hv] at this
  simp only [List.singleton_append, List.cons.injEq, true_and] at this
  subst this
  have := hrun [.tuple [.uint8, .uint16]] []
  rw [List.append_nil] at this
  rw [this]
  have hde : Prog.run t (Body.de t mode size (.tuple [.uint8, .uint16])) ([2] ++ []) = .err .read := by
    rw [Prog.run, Body.de]
    simp only [Body.deAll, Body.de]
    have ha : t.allocate (([.uint8, .uint16] : List Header).length * size) = none := by
      simp only [Target.allocate, List.length_cons, List.length_nil]
      rw [if_neg (by omega), if_neg (by omega)]
    rw [Prog.exec, ha]
    rfl
  simp only [variantPosition, List.getElem?_cons_zero, hde]

/-- `struct N(#[serde(skip)] u8)`: the header has no member, but the field is
written, so the byte is left in the input. -/
theorem C69_newtype (t : Target) (mode : BuildMode) (size : Nat) :
    Announces (.struct "N" (.unnamed [.mk [skipAttr] "0" .u8])) (.tuple []) ∧
    (ser mode (.struct "N" (.unnamed [.mk [skipAttr] "0" .u8])) (7, ())).exec = ([7], .ok ()) ∧
    Prog.run t (Body.de t mode size (.tuple [])) [7] = .ok (.tuple [], [7]) := by
  refine ⟨(announces_iff _ _).mpr ⟨.struct _ _ _ (by decide) .nil,
    by simp [Countable, AllCountable]⟩, ?_, ?_⟩
  · rw [ser, ser]
    decide +kernel
  · rw [Prog.run, Body.de, Body.deAll]
    have ha : t.allocate (([] : List Header).length * size) = none := by
      simp [Target.allocate]
    rw [Prog.exec, ha]
    rfl

/-! ## C70 writing the header of a type -/

/-- On a writer that takes its time but does not fail, the header of a type is
written completely. -/
theorem C70_benign (T : RTy) (p : WProg IoErr) (hT : serializeHeader T = .ok p) (h : Header)
    (hd : Describes T h) (hc : Countable h) (s : WScript)
    (hs : ∀ ev ∈ s, ev = .interrupted ∨ ∃ n, ev = .accept (n + 1)) :
    p.runScript s = (headerWire h, .ok ()) := by
  obtain ⟨q, hq, hx⟩ := writes_header T h hd
  rw [hT] at hq
  cases hq
  rw [WProg.runScript_benign _ s hs, hx hc]

/-- On every writer, the header of a type was written completely, or an error is
returned and a strict prefix was written. -/
theorem C70_prefix (T : RTy) (p : WProg IoErr) (hT : serializeHeader T = .ok p) (h : Header)
    (hd : Describes T h) (hc : Countable h) (s : WScript) :
    p.runScript s = (headerWire h, .ok ()) ∨
    ((∃ e, (p.runScript s).2 = .err e) ∧ (p.runScript s).1 <+: headerWire h ∧
      (p.runScript s).1 ≠ headerWire h) := by
  obtain ⟨q, hq, hx⟩ := writes_header T h hd
  rw [hT] at hq
  cases hq
  have := WProg.runScript_prefix (maps_header T p hT) s
  rwa [hx hc] at this

end Dlhn.Props
