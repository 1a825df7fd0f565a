import Verif.Proof.SerIf
import Verif.Props.Derive
import Verif.Props.DeriveIo
/-!
# C106: fields left out depending on their value

`#[serde(skip_serializing_if = "..")]` on a field inside a variant is accepted by
`#[derive(SerializeHeader)]`. `Derive.serIf cond` is what serde_derive generates, with the
predicates `cond`.
-/
namespace Dlhn.Props

open Derive
open Spec hiding variantFields

/-- As long as no predicate holds, the value is written as if the attribute were not there;
the theorems about `Derive.ser` are about such values. -/
theorem C106_kept (cond : Cond) (mode : BuildMode) (T : RTy) (v : Carrier T)
    (h : AllKept cond T v) : serIf cond mode T v = ser mode T v := serIf_kept cond mode T v h

/-- Types with a header and without the attributes excluded in C57 never leave anything out. -/
theorem C106_plain (T : RTy) (h : Header) (hT : Announces T h) (hp : Plain T) (cond : Cond)
    (mode : BuildMode) (v : Carrier T) : serIf cond mode T v = ser mode T v :=
  serIf_kept cond mode T v (kept_of_plain cond T h ((announces_iff _ _).mp hT).1 hp v)

/-- The bytes of every value, and the values for which serialization succeeds: `WrittenIf`
lists, type by type, what is written. -/
theorem C106_bytes (cond : Cond) (mode : BuildMode) (T : RTy) (v : Carrier T) (bs : List UInt8) :
    (serIf cond mode T v).exec = (bs, .ok ()) ↔ WrittenIf cond mode T v bs :=
  puts_serIf cond mode T v bs

/-- Inside options, lists and maps the predicates are asked for each value: of three values
`V { a, b }` the second leaves `a` out. -/
example (mode : BuildMode) : WrittenIf (fun _ T v => match T, v with
      | .option _, none => true
      | _, _ => false) mode
    (.vec (.enum "E" [.mk [] "V" (.named [.mk [skipIfAttr] "a" (.option .u8),
      .mk [] "b" (.option .u8)])]))
    [.inl (some 1, none, ()), .inl (none, some 2, ()), .inl (some 3, some 4, ())]
    [3, 0, 1, 1, 0, 0, 1, 2, 0, 1, 3, 1, 4] := (puts_serIf _ _ _ _ _).mp rfl

/-- A field that is left out is written as nothing: the bytes, and the outcome, are those of a
type in which the field is not declared. -/
theorem C106_undeclared (cond : Cond) (mode : BuildMode) (name : String)
    (before after : List RVariant) (a xa : List Attr) (vn xn : String) (X : RTy)
    (pre post : List RField) (us : FieldCarrier pre) (x : Carrier X) (ws : FieldCarrier post)
    (hx : LeftOut cond xa X x) :
    serIf cond mode (.enum name (before ++ .mk a vn (.named (pre ++ .mk xa xn X :: post)) :: after))
        (afterVariants before (.inl (together pre us (post := .mk xa xn X :: post) (x, ws)))) =
      serIf cond mode (.enum name (before ++ .mk a vn (.named (pre ++ post)) :: after))
        (afterVariants before (.inl (together pre us ws))) := by
  have hq : serFieldsIf cond mode (.mk xa xn X :: post) (x, ws) = serFieldsIf cond mode post ws := by
    rw [serFieldsIf, if_pos ((leftOut_iff cond xa X x).mpr hx), ite_self]
  rw [serIf, serIf, serVariantIf_after, serVariantIf_after, serVariantIf, serVariantIf]
  simp only [serFieldsIf_together, hq]

/-- The same for tuple variants; a single field left over would make it a newtype variant, for
which serde_derive does not look at the attribute. -/
theorem C106_undeclared_tuple (cond : Cond) (mode : BuildMode) (name : String)
    (before after : List RVariant) (a xa : List Attr) (vn xn : String) (X : RTy)
    (pre post : List RField) (h2 : 2 ≤ (pre ++ post).length) (us : FieldCarrier pre)
    (x : Carrier X) (ws : FieldCarrier post) (hx : LeftOut cond xa X x) :
    serIf cond mode (.enum name (before ++ .mk a vn (.unnamed (pre ++ .mk xa xn X :: post)) :: after))
        (afterVariants before (.inl (together pre us (post := .mk xa xn X :: post) (x, ws)))) =
      serIf cond mode (.enum name (before ++ .mk a vn (.unnamed (pre ++ post)) :: after))
        (afterVariants before (.inl (together pre us ws))) := by
  have hq : serFieldsIf cond mode (.mk xa xn X :: post) (x, ws) = serFieldsIf cond mode post ws := by
    rw [serFieldsIf, if_pos ((leftOut_iff cond xa X x).mpr hx), ite_self]
  have hun : ∀ (fs : List RField) (vs : FieldCarrier fs) (i : Nat), 2 ≤ fs.length →
      serVariantIf cond mode name i (.mk a vn (.unnamed fs) :: after) (.inl vs) =
        if serdeSkips a then .done (.err (.message
          ("the enum variant " ++ name ++ "::" ++ vn ++ " cannot be serialized")))
        else (Ser.serU32 (UInt32.ofNat i)).andThen (serFieldsIf cond mode fs vs) := by
    intro fs vs i hl
    match fs, vs, hl with
    | f :: g :: fs, vs, _ => rw [serVariantIf]
  rw [serIf, serIf, serVariantIf_after, serVariantIf_after,
    hun _ _ _ (by simp only [List.length_append, List.length_cons] at h2 ⊢; omega), hun _ _ _ h2]
  simp only [serFieldsIf_together, hq]

/-- The reader knows nothing of this: after the fields before it, it reads the field that was
left out and all later ones from the bytes of the later ones and whatever follows the value. -/
theorem C106_read (t : Target) (hm : 4096 ≤ t.memLimit) (mode : BuildMode) (env : Env)
    (ho : FairOrder env) (cond : Cond) (name : String) (before after : List RVariant)
    (hb : before.length < 16384) (hbs : ∀ v ∈ before, ¬ SkippedDe (variantAttrs v))
    (a xa : List Attr) (ha : ¬ Skipped a ∧ ¬ SkippedDe a) (vn xn : String) (X : RTy)
    (pre post : List RField) (us : FieldCarrier pre) (x : Carrier X) (ws : FieldCarrier post)
    (hpre : ReadsBack t mode env ⟨.struct vn (.named pre), us⟩)
    (hk : AllKept cond (.struct vn (.named pre)) us) (hx : LeftOut cond xa X x)
    (later : List UInt8)
    (hpost : (serIf cond mode (.struct vn (.named post)) ws).exec = (later, .ok ())) :
    ∃ us' bs, Returned env (.struct vn (.named pre)) us us' ∧
      (serIf cond mode
        (.enum name (before ++ .mk a vn (.named (pre ++ .mk xa xn X :: post)) :: after))
        (afterVariants before (.inl (together pre us (post := .mk xa xn X :: post) (x, ws))))).exec
          = (bs, .ok ()) ∧
      ∀ rest, Prog.run t (deTy t mode env
          (.enum name (before ++ .mk a vn (.named (pre ++ .mk xa xn X :: post)) :: after)))
          (bs ++ rest) =
        (Prog.run t (deTy t mode env (.struct vn (.named (.mk xa xn X :: post))))
          (later ++ rest)).map fun (ys, r) => (afterVariants before (.inl (together pre us' ys)), r) := by
  obtain ⟨h1, h2, h3, h4, h5, h6⟩ := hpre
  obtain ⟨us', e, hs, hw, hr⟩ := C71_roundtrip t hm mode env ho _ h1 h2 h3 us h4 h5 h6
  have hs' : (serFieldsIf cond mode pre us).exec = (e, .ok ()) := by
    have := serIf_kept cond mode (.struct vn (.named pre)) us hk
    rw [serIf] at this
    rw [this]; exact hs
  rw [serIf] at hpost
  refine ⟨us', varint 32 before.length ++ (e ++ later), hw, ?_, ?_⟩
  · rw [C106_undeclared cond mode name before after a xa vn xn X pre post us x ws hx, serIf,
      serVariantIf_after, serVariantIf, if_neg (by rw [serdeSkips_iff]; exact ha.1)]
    simp only [serFieldsIf_together, WProg.exec_andThen, hs', hpost, Nat.zero_add]
    rw [Ser.exec_serU32, UInt32.toNat_ofNat', Nat.mod_eq_of_lt (by omega)]
  · intro rest
    have hr' := hr .eof (later ++ rest)
    rw [deTy] at hr'
    rw [deTy, deTy, Prog.run, Prog.bind_eq, Prog.exec_bind, List.append_assoc,
      De.varint_32_16 _ (by omega), De.deU16, De.exec_u16_varint _ _ _ (by omega), Prog.next_ok,
      UInt16.toNat_ofNat', Nat.mod_eq_of_lt (by omega), deVariant_after t mode env before hbs,
      deVariant_zero t mode env ha.2, dePayload, deFields_together, Prog.bind_eq, Prog.exec_bind,
      Prog.bind_eq, Prog.exec_bind, Prog.bind_eq, Prog.exec_bind, List.append_assoc, hr',
      Prog.next_ok, Prog.bind_eq, Prog.exec_bind, Prog.run]
    cases Prog.exec t .eof (deFields t mode env (.mk xa xn X :: post)) (later ++ rest) <;> rfl

/-- In particular the last field, if it is left out, is read from what follows the value. -/
theorem C106_last (t : Target) (hm : 4096 ≤ t.memLimit) (mode : BuildMode) (env : Env)
    (ho : FairOrder env) (cond : Cond) (name : String) (before after : List RVariant)
    (hb : before.length < 16384) (hbs : ∀ v ∈ before, ¬ SkippedDe (variantAttrs v))
    (a xa : List Attr) (ha : ¬ Skipped a ∧ ¬ SkippedDe a) (hxa : ¬ SkippedDe xa) (vn xn : String)
    (X : RTy) (pre : List RField) (us : FieldCarrier pre) (x : Carrier X)
    (hpre : ReadsBack t mode env ⟨.struct vn (.named pre), us⟩)
    (hk : AllKept cond (.struct vn (.named pre)) us) (hx : LeftOut cond xa X x) :
    ∃ us' bs, Returned env (.struct vn (.named pre)) us us' ∧
      (serIf cond mode (.enum name (before ++ .mk a vn (.named (pre ++ [.mk xa xn X])) :: after))
        (afterVariants before (.inl (together pre us (post := [.mk xa xn X]) (x, ()))))).exec
          = (bs, .ok ()) ∧
      ∀ rest, Prog.run t (deTy t mode env
          (.enum name (before ++ .mk a vn (.named (pre ++ [.mk xa xn X])) :: after))) (bs ++ rest) =
        (Prog.run t (deTy t mode env X) rest).map fun (y, r) =>
          (afterVariants before (.inl (together pre us' (post := [.mk xa xn X]) (y, ()))), r) := by
  obtain ⟨us', bs, h1, h2, h3⟩ := C106_read t hm mode env ho cond name before after hb hbs a xa ha
    vn xn X pre [] us x () hpre hk hx [] (by rw [serIf, serFieldsIf]; rfl)
  refine ⟨us', bs, h1, h2, fun rest => ?_⟩
  rw [h3, List.nil_append, deTy, deFields, if_neg (by rw [deSkips_iff]; exact hxa), deFields,
    Prog.run, Prog.bind_eq, Prog.exec_bind, Prog.run]
  cases Prog.exec t .eof (deTy t mode env X) rest <;> rfl

/-- `enum E { V { #[serde(skip_serializing_if = "Option::is_none")] a: Option<u8>,
b: Option<u8> } }` -/
def conditionalTy : RTy := .enum "E" [.mk [] "V" (.named [.mk [skipIfAttr] "a" (.option .u8),
  .mk [] "b" (.option .u8)])]

/-- `Option::is_none`. -/
def isNone : Cond
  | _, .option _, none => true
  | _, _, _ => false

/-- The type gets a header. Two values `V { a: None, b: Some(1) }`, one after the other, are
written in six bytes, and the first value read from them, by type or under the header, is
`V { a: Some(1), b: None }`, which nobody wrote; then two bytes are left. -/
theorem C106_witness (t : Target) (mode : BuildMode) (size : Nat) (env : Env)
    (hm : 2 * size ≤ t.memLimit) (hp : 2 * size ≤ t.isizeMax) :
    Announces conditionalTy (.enum [.tuple [.optional .uint8, .optional .uint8]]) ∧
    (serIf isNone mode conditionalTy (.inl (none, some 1, ()))).exec = ([0, 1, 1], .ok ()) ∧
    Prog.run t (deTy t mode env conditionalTy) ([0, 1, 1] ++ [0, 1, 1]) =
      .ok (.inl (some 1, none, ()), [1, 1]) ∧
    Prog.run t (Body.de t mode size (.enum [.tuple [.optional .uint8, .optional .uint8]]))
      ([0, 1, 1] ++ [0, 1, 1]) = .ok (.enum 0 (.tuple [.some (.uint8 1), .none]), [1, 1]) := by
  refine ⟨(announces_iff _ _).mpr ⟨.enum _ _ _ (by decide) ?_, by simp [Countable, AllCountable]⟩,
    ?_, ?_, ?_⟩
  · exact .cons _ _ _ _ (.many _ _ (by decide) (.cons _ _ _ _ (.option _ _ .u8)
      (.cons _ _ _ _ (.option _ _ .u8) .nil))) .nil
  · rfl
  · rfl
  · have : t.allocate (2 * size) = none := by
      rw [Target.allocate, if_neg (by omega), if_neg (by omega)]
    have hrun : Prog.run t (Body.de t mode size
          (.enum [.tuple [.optional .uint8, .optional .uint8]])) ([0, 1, 1] ++ [0, 1, 1]) =
        match t.allocate (2 * size) with
        | some w => .panic w
        | none => .ok (.enum 0 (.tuple [.some (.uint8 1), .none]), [1, 1]) := by
      rw [Prog.run, Body.de, Prog.bind_eq, Prog.exec_bind]
      show Prog.next (.ok (0, [1, 1, 0, 1, 1])) _ = _
      rw [Prog.next_ok]
      show Prog.exec t .eof (Prog.bind (Body.deNth t mode size 0 _) _) _ = _
      rw [Body.deNth, Body.de, Prog.exec_bind, Prog.exec]
      simp only [List.length_cons, List.length_nil, Nat.zero_add]
      cases t.allocate (2 * size) <;> rfl
    rw [hrun, this]

/-- `C106_read` applies to it: no field before, one field after. -/
example (t : Target) (hm : 4096 ≤ t.memLimit) (mode : BuildMode) :
    ∃ bs, (serIf isNone mode conditionalTy (.inl (none, some 1, ()))).exec = (bs, .ok ()) := by
  obtain ⟨_, bs, _, h, _⟩ := C106_read t hm mode sampleEnv sample_fair isNone "E" [] [] (by decide)
    (by simp) [] [skipIfAttr] ⟨by decide, by decide⟩ "V" "a" (.option .u8) []
    [.mk [] "b" (.option .u8)] () none (some 1, ())
    (by
      refine ⟨?_, ?_, ?_, ?_, ?_, ?_⟩ <;>
      simp [Readable, Symmetric, Defaulted, Real, DatesRebase, InstantsInRange, typeParts,
        typePartsFields, valueParts, valuePartsFields, ReadablePart, SymmetricPart,
        SymmetricFields, DefaultedPart, DefaultedFields, RealPart, declared])
    (by simp [AllKept, FieldsKept]) ⟨by decide, rfl⟩ [1, 1] rfl
  exact ⟨bs, h⟩

/-- Values of `Some` are not left out: the hypothesis of `C106_kept`. -/
example : AllKept isNone conditionalTy (.inl (some 7, none, ())) := by
  have h1 : ¬ Conditional [] := by decide
  simp [conditionalTy, AllKept, VariantKept, FieldsKept, LeftOut, isNone, h1]

end Dlhn.Props
