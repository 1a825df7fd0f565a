import Verif.Proof.Attrs
import Verif.Props.Evolve
import Verif.Props.Bounds
import Verif.Props.After
import Verif.Props.Derive
/-!
# C109-C111: serde attributes that dlhn does not honour

`attrStruct`, `otherEnum`, `untaggedSer`, `internalSer`, `bufferedDe`, `flattenSer` and
`flattenDe` (Model/Attrs.lean) are the implementations serde_derive generates.
-/
namespace Dlhn.Props

open Spec De

/-! ## C109 defaults, aliases, unknown fields -/

/-- Whatever a struct has for missing fields, whatever its aliases are and whether it denies
unknown fields: it is read like the struct without these attributes. -/
theorem C109_struct (t : Target) (deny : Bool) (name : String) (fs : List AField)
    (hk : KeysApart fs) (hd : FieldsDistinct (plainFields fs)) :
    (attrStruct deny name (fs.map (·.name)) fs).run t = de t (.struct name (plainFields fs)) := by
  rw [attrStruct, Impl.run, Impl.run, List.length_map, de]
  have := run_visitFields t deny [] fs [] rfl hk hd
  simp only [List.map_nil, List.nil_append, List.zip_nil_left] at this
  rw [this, Prog.bind_assoc, Prog.bind_eq]
  congr

/-- The same for the fields of a struct variant. -/
theorem C109_variant (t : Target) (deny : Bool) (name : String) (i : UInt32) (vn : String)
    (fs : List AField) (hk : KeysApart fs) (hd : FieldsDistinct (plainFields fs)) :
    (VariantImpl.struct (fs.map (·.name))
        (visitFields deny fs (fs.length + 1) (fs.map fun _ => none))
        fun vs => .ok (.structVariant name i vn vs)).run t
      = dePayload t name i vn (.struct (plainFields fs)) := by
  rw [VariantImpl.run, dePayload]
  have := run_visitFields t deny [] fs [] rfl hk hd
  simp only [List.map_nil, List.nil_append, List.zip_nil_left] at this
  rw [this, Prog.bind_assoc, Prog.bind_eq]
  congr

/-- So a field added with a default does not make old data readable: the field is read from
whatever follows them. -/
theorem C109_added (t : Target) (hm : 4096 ≤ t.memLimit) (deny : Bool) (name : String)
    (fs : List AField) (f : AField) (hk : KeysApart (fs ++ [f]))
    (hd : FieldsDistinct (plainFields (fs ++ [f]))) (hf : FieldsSupported (plainFields fs))
    (vs : List (String × Val)) (hv : Has t (.struct name (plainFields fs)) (.struct name vs))
    (more : List UInt8) :
    Prog.run t ((attrStruct deny name ((fs ++ [f]).map (·.name)) (fs ++ [f])).run t)
        ((Ser.toVec (.struct name vs)).1 ++ more)
      = (Prog.run t (de t f.ty) more).map fun r => (.struct name (vs ++ [(f.name, r.1)]), r.2) := by
  rw [C109_struct t deny name _ hk hd, plainFields, List.map_append]
  have := C91_missing t hm name (plainFields fs) [(f.name, f.ty)] hf vs hv more
  rw [show (fs.map fun f => (f.name, f.ty)) = plainFields fs from rfl]
  simp only [List.map_cons, List.map_nil]
  rw [this, Prog.run, Prog.run, de, Prog.bind_eq, Prog.exec_bind, deFields, Prog.bind_eq,
    Prog.exec_bind]
  cases h : Prog.exec t .eof (de t f.ty) more <;> rfl

/-- In particular, old data alone are not readable if the new field takes at least a byte. -/
theorem C109_added_end (t : Target) (hm : 4096 ≤ t.memLimit) (deny : Bool) (name : String)
    (fs : List AField) (f : AField) (hk : KeysApart (fs ++ [f]))
    (hd : FieldsDistinct (plainFields (fs ++ [f]))) (hf : FieldsSupported (plainFields fs))
    (hs : Supported f.ty) (hz : 0 < minSize f.ty)
    (vs : List (String × Val)) (hv : Has t (.struct name (plainFields fs)) (.struct name vs)) :
    ∃ e, Prog.run t ((attrStruct deny name ((fs ++ [f]).map (·.name)) (fs ++ [f])).run t)
        (Ser.toVec (.struct name vs)).1 = .err e := by
  obtain ⟨e, he⟩ := C103_short t hm f.ty hs .eof [] hz
  have := C109_added t hm deny name fs f hk hd hf vs hv []
  rw [List.append_nil, Prog.run, Prog.run, he] at this
  exact ⟨e, this⟩

/-- If the list of field names includes an alias, nothing can be read at all: after the field
itself comes an error. -/
theorem C109_alias (t : Target) (deny : Bool) (name : String) (pre post : List AField) (f : AField)
    (alias : String) (others : List String) (ha : alias ∈ f.aliases)
    (hp : ∀ g ∈ pre, ¬ g.answers alias) (hk : KeysApart (pre ++ f :: post))
    (hd : FieldsDistinct (plainFields (pre ++ [f]))) (fin : Ending) (bs : List UInt8) :
    Prog.exec t fin ((attrStruct deny name (pre.map (·.name) ++ f.name :: alias :: others)
        (pre ++ f :: post)).run t) bs
      = match Prog.exec t fin (de t (.struct name (plainFields (pre ++ [f])))) bs with
        | .ok _ => .err (.message ("duplicate field `" ++ f.name ++ "`"))
        | .err e => .err e
        | .panic q => .panic q := by
  have h := run_visitFields_alias t deny [] pre post f alias others [] rfl hk
    (by simp [AField.answers, ha]) (by simpa using hp) hd (others.length + 1)
  simp only [List.map_nil, List.nil_append] at h
  rw [attrStruct, Impl.run, Impl.run,
    show (pre.map (·.name) ++ f.name :: alias :: others).length + 1
      = pre.length + 1 + (others.length + 1 + 1) from by simp; omega, h, Prog.exec_bind,
    Prog.exec_bind, de, Prog.bind_eq, Prog.exec_bind]
  cases Prog.exec t fin (deFields t (plainFields (pre ++ [f]))) bs <;> rfl

/-- `struct S { a: u8, #[serde(alias = "x", default)] b: Option<u8> }` -/
def attrFields : List AField := [
  ⟨"a", [], .u8, .error (.message "missing field `a`")⟩, ⟨"b", ["x"], .option .u8, .ok .none⟩]

example : KeysApart attrFields ∧ FieldsDistinct (plainFields attrFields) := by
  refine ⟨?_, by simp [attrFields, plainFields, FieldsDistinct, DistinctFields]⟩
  simp [attrFields, KeysApart]
  decide

/-- `[7]` is what `S { a: 7 }` was before `b` was added; with a second record behind it, the
first one takes its bytes. -/
example : Prog.run ⟨.w64, 4096⟩ ((attrStruct false "S" ["a", "b"] attrFields).run ⟨.w64, 4096⟩) [7]
      = .err .read ∧
    Prog.run ⟨.w64, 4096⟩ ((attrStruct false "S" ["a", "b"] attrFields).run ⟨.w64, 4096⟩) [7, 0]
      = .ok (.struct "S" [("a", .u8 7), ("b", .none)], []) ∧
    Prog.run ⟨.w64, 4096⟩ ((attrStruct false "S" ["a", "b", "x"] attrFields).run ⟨.w64, 4096⟩)
      [7, 0] = .err (.message "duplicate field `b`") := ⟨rfl, rfl, rfl⟩

/-! ## C110 `#[serde(other)]` -/

/-- An enum with an `other` variant reads what it can read without. -/
theorem C110_known (t : Target) (name : String) (vs : List (String × VTy)) (other : UInt16)
    (ho : other.toNat < vs.length) (hd : VariantsDistinct vs) (fin : Ending) (bs rest : List UInt8)
    (v : Val) (h : Prog.exec t fin (de t (.enum name vs)) bs = .ok (v, rest)) :
    Prog.exec t fin ((otherEnum name vs other).run t) bs = .ok (v, rest) := by
  rw [run_otherEnum t name vs other ho hd, Prog.exec_bind]
  rw [de, Prog.bind_eq, Prog.exec_bind] at h
  cases hx : Prog.exec t fin (io PrefixVarint.decodeU16) bs with
  | err e => rw [hx] at h; cases h
  | panic q => rw [hx] at h; cases h
  | ok r =>
    obtain ⟨i, r⟩ := r
    rw [hx, Prog.next_ok] at h
    rw [Prog.next_ok]
    by_cases hi : i.toNat < vs.length
    · rw [if_pos hi]; exact h
    · rw [deVariant_none t name i i.toNat vs (by omega)] at h
      cases h

/-- It reads every unknown variant as the `other` one, but leaves the fields of the variant
unread. -/
theorem C110_unknown (t : Target) (name : String) (vs : List (String × VTy)) (other : UInt16)
    (on : String) (ho : vs[other.toNat]? = some (on, .unit)) (hd : VariantsDistinct vs) (v : Val)
    (i : UInt32) (vn : String) (hi : variantOf v = some (i, vn)) (h1 : vs.length ≤ i.toNat)
    (h2 : i.toNat < 16384) (hs : Serializable v) (hf : Fits v) (more : List UInt8) :
    Prog.run t ((otherEnum name vs other).run t) ((Ser.toVec v).1 ++ more)
      = .ok (.unitVariant name other.toUInt32 on, payloadWire v ++ more) := by
  have hw : (Ser.toVec v).1 = varint 32 i.toNat ++ payloadWire v := by
    rw [Ser.toVec, Ser.exec_ser v hs hf]
    cases v <;> simp [variantOf] at hi <;> obtain ⟨rfl, -⟩ := hi <;> simp [wire, payloadWire]
  have hn : ∀ (j : Nat) (vs : List (String × VTy)), vs[j]? = some (on, .unit) →
      deVariant t name other j vs = .done (.ok (.unitVariant name other.toUInt32 on)) := by
    intro j
    induction j with
    | zero =>
      intro vs h
      cases vs with
      | nil => simp at h
      | cons a vs =>
        simp only [List.getElem?_cons_zero, Option.some.injEq] at h
        subst h
        rw [deVariant, dePayload]; rfl
    | succ j ih =>
      intro vs h
      cases vs with
      | nil => simp at h
      | cons a vs => rw [deVariant]; exact ih vs (by simpa using h)
  rw [run_otherEnum t name vs other (List.getElem?_eq_some_iff.mp ho).1 hd, hw, List.append_assoc,
    Prog.run, Prog.exec_bind, varint_32_16 _ h2, exec_u16_varint t _ _ (by omega), Prog.next_ok,
    UInt16.toNat_ofNat', Nat.mod_eq_of_lt (by omega), if_neg (by omega), hn _ _ ho]
  rfl

/-- So unknown variants without fields are harmless: a list is read with all of them replaced. -/
theorem C110_list (t : Target) (name : String) (vs : List (String × VTy)) (other : UInt16)
    (on : String) (ho : vs[other.toNat]? = some (on, .unit)) (hd : VariantsDistinct vs)
    (hm : 4096 ≤ t.memLimit) (hsup : Supported (.enum name vs))
    (items : List (Val × Val))
    (hi : ∀ e ∈ items, (e.1 = e.2 ∧ Has t (.enum name vs) e.1) ∨
      (∃ i vn, e.1 = .unitVariant name i vn ∧ vs.length ≤ i.toNat ∧ i.toNat < 16384 ∧
        e.2 = .unitVariant name other.toUInt32 on)) (hl : items.length < 2 ^ t.ptr.bits)
    (more : List UInt8) :
    Prog.run t ((Impl.seq fun n => collectSeq (otherEnum name vs other) (n + 1) []).run t)
        ((Ser.toVec (.seq (some items.length) (items.map (·.1)))).1 ++ more)
      = .ok (items.map (·.2), more) := by
  have hp : t.ptr.bits ≤ 64 := by cases t.ptr <;> decide
  have hlt : items.length < 2 ^ 64 := Nat.lt_of_lt_of_le hl (Nat.pow_le_pow_right (by decide) hp)
  have one : ∀ e ∈ items, Serializable e.1 ∧ Fits e.1 ∧ ∀ more,
      Prog.run t ((otherEnum name vs other).run t) (wire e.1 ++ more) = .ok (e.2, more) := by
    intro e he
    rcases hi e he with ⟨h1, h2⟩ | ⟨i, vn, h1, h2, h3, h4⟩
    · obtain ⟨a, b⟩ := has_ok t _ hsup _ h2
      refine ⟨a, b, fun more => ?_⟩
      rw [← h1]
      exact C110_known t name vs other (List.getElem?_eq_some_iff.mp ho).1 hd .eof _ _ _
        (de_wire t hm _ hsup _ h2 .eof more)
    · have a : Serializable e.1 := by rw [h1]; simp [Serializable]
      have b : Fits e.1 := by rw [h1]; simp [Fits]
      refine ⟨a, b, fun more => ?_⟩
      have := C110_unknown t name vs other on ho hd e.1 i vn (by rw [h1]; rfl) h2 h3 a b more
      rw [Ser.toVec, Ser.exec_ser _ a b] at this
      rw [this, h4, h1]
      rfl
  have hall : ∀ its : List (Val × Val), (∀ e ∈ its, e ∈ items) →
      AllSerializable (its.map (·.1)) ∧ AllFit (its.map (·.1)) ∧ ∀ more,
      Prog.exec t .eof (times its.length ((otherEnum name vs other).run t))
        (wireAll (its.map (·.1)) ++ more) = .ok (its.map (·.2), more) := by
    intro its
    induction its with
    | nil => intro _; exact ⟨trivial, trivial, fun more => rfl⟩
    | cons e its ih =>
      intro h
      obtain ⟨a, b, c⟩ := one e (h e (by simp))
      obtain ⟨a', b', c'⟩ := ih fun x hx => h x (List.mem_cons_of_mem _ hx)
      refine ⟨⟨a, a'⟩, ⟨b, b'⟩, fun more => ?_⟩
      have hc := c (wireAll (its.map (·.1)) ++ more)
      rw [Prog.run] at hc
      rw [List.length_cons, times, List.map_cons, wireAll, List.append_assoc, Prog.bind_eq,
        Prog.exec_bind, hc, Prog.next_ok, Prog.bind_eq, Prog.exec_bind, c' more]
      rfl
  obtain ⟨a, b, c⟩ := hall items fun _ h => h
  rw [Ser.toVec, Ser.exec_ser _ (show Serializable (.seq _ _) from a)
    (show Fits (.seq _ _) from ⟨fun n hn => by cases hn; exact hlt, b⟩), wire, lengthPrefix,
    List.append_assoc, Prog.run, Impl.run, Prog.exec_bind, exec_u64_varint t _ _ hlt, Prog.next_ok,
    asUsize_ofNat hl, run_collectSeq, Prog.exec_bind]
  have hc := c more
  rw [hc, Prog.next_ok]
  rfl

/-- Unknown variants with fields are not: of `[A(9), B(0), A(8)]`, where `B` is unknown, a reader
makes `[A(9), Other, A(0)]`: the field of `B` is read as the variant `A`, whose field is the
variant of the next element, and `8` is left for whatever is read next. -/
theorem C110_not_isolated (t : Target) :
    ∃ (old new : List (String × VTy)) (a9 b0 a8 a0 : Val),
      Has t (.enum "E" old) a9 ∧ Has t (.enum "E" old) a8 ∧ Has t (.enum "E" new) a9 ∧
      Has t (.enum "E" new) b0 ∧ Has t (.enum "E" new) a8 ∧ old[1]? = some ("Other", .unit) ∧
      a0 ≠ a9 ∧ a0 ≠ a8 ∧
      Prog.run t ((Impl.seq fun n => collectSeq (otherEnum "E" old 1) (n + 1) []).run t)
          (Ser.toVec (.seq (some 3) [a9, b0, a8])).1
        = .ok ([a9, .unitVariant "E" 1 "Other", a0], [8]) := by
  refine ⟨[("A", .newtype .u8), ("Other", .unit)],
    [("A", .newtype .u8), ("Other", .unit), ("B", .newtype .u8)],
    .newtypeVariant "E" 0 "A" (.u8 9), .newtypeVariant "E" 2 "B" (.u8 0),
    .newtypeVariant "E" 0 "A" (.u8 8), .newtypeVariant "E" 0 "A" (.u8 0), ?_, ?_, ?_, ?_, ?_, ?_,
    ?_, ?_, ?_⟩
  · simp [Has, HasVariant, HasPayload]
  · simp [Has, HasVariant, HasPayload]
  · simp [Has, HasVariant, HasPayload]
  · simp [Has, HasVariant, HasPayload]
  · simp [Has, HasVariant, HasPayload]
  · rfl
  · simp
  · simp
  · obtain ⟨w, l⟩ := t
    cases w <;> rfl

/-- The hypotheses of `C110_list`: `A`, then a variant that did not exist, then `Other` itself. -/
example (t : Target) (hm : 4096 ≤ t.memLimit) (more : List UInt8) :
    Prog.run t ((Impl.seq fun n => collectSeq (otherEnum "E"
        [("A", .newtype .u8), ("Other", .unit)] 1) (n + 1) []).run t)
        ((Ser.toVec (.seq (some 3) [.newtypeVariant "E" 0 "A" (.u8 9), .unitVariant "E" 2 "New",
          .unitVariant "E" 1 "Other"])).1 ++ more)
      = .ok ([.newtypeVariant "E" 0 "A" (.u8 9), .unitVariant "E" 1 "Other",
          .unitVariant "E" 1 "Other"], more) := by
  refine C110_list t "E" [("A", .newtype .u8), ("Other", .unit)] 1 "Other" rfl
    (by simp [VariantsDistinct, PayloadDistinct, DistinctFields]) hm
    (by simp [Supported, VariantsSupported, PayloadSupported])
    [(.newtypeVariant "E" 0 "A" (.u8 9), .newtypeVariant "E" 0 "A" (.u8 9)),
      (.unitVariant "E" 2 "New", .unitVariant "E" 1 "Other"),
      (.unitVariant "E" 1 "Other", .unitVariant "E" 1 "Other")] ?_ (by cases t.ptr <;> decide) more
  intro e he
  simp only [List.mem_cons, List.not_mem_nil, or_false] at he
  rcases he with rfl | rfl | rfl
  · exact .inl ⟨rfl, by simp [Has, HasVariant, HasPayload]⟩
  · exact .inr ⟨2, "New", rfl, by decide, by decide, rfl⟩
  · exact .inl ⟨rfl, by simp [Has, HasVariant, HasPayload]⟩

/-! ## C111 `untagged`, `tag` and `flatten` -/

/-- A value of an untagged enum is written as its fields alone. -/
theorem C111_untagged_written (v : Val) (i : UInt32) (vn : String) (hi : variantOf v = some (i, vn))
    (hs : Serializable v) (hf : Fits v) :
    (untaggedSer v).run.exec = (payloadWire v, .ok ()) ∧
      (Ser.toVec v).1 = varint 32 i.toNat ++ payloadWire v := by
  have hw : (Ser.toVec v).1 = varint 32 i.toNat ++ payloadWire v := by
    rw [Ser.toVec, Ser.exec_ser v hs hf]
    cases v <;> simp [variantOf] at hi <;> obtain ⟨rfl, -⟩ := hi <;> simp [wire, payloadWire]
  refine ⟨?_, hw⟩
  cases v <;> simp only [variantOf, Option.some.injEq, Prod.mk.injEq, reduceCtorEq] at hi
  · rfl
  case newtypeVariant n j x v =>
    rw [untaggedSer, run_implOfVal, WCode.exec_ofProg]
    exact Ser.exec_ser v hs hf
  case tupleVariant n j x vs =>
    rw [untaggedSer, SerImpl.run, run_seqOfVals, WCode.exec_ofProg]
    exact Ser.exec_ser (.tuple vs) hs hf
  case structVariant n j x fs =>
    rw [untaggedSer, SerImpl.run, run_structOfVals, WCode.exec_ofProg]
    exact Ser.exec_ser (.struct x fs) hs hf

/-- A value of an internally tagged enum is written as the name of its variant, followed by its
fields or those of the struct in it; in front of the entries of a map in it come the name of the
tag and the name of the variant. -/
theorem C111_internal_written (tag name : String) (i : UInt32) (vn : String)
    (hv : (utf8 vn).length < 2 ^ 64) (ht : (utf8 tag).length < 2 ^ 64) :
    (internalSer tag (.unitVariant name i vn)).run.exec = (block (utf8 vn), .ok ()) ∧
    (∀ fs, FieldsSerializable fs → FieldsFit fs →
      (internalSer tag (.structVariant name i vn fs)).run.exec
        = (block (utf8 vn) ++ wireFields fs, .ok ()) ∧
      ∀ s, (internalSer tag (.newtypeVariant name i vn (.struct s fs))).run.exec
        = (block (utf8 vn) ++ wireFields fs, .ok ())) ∧
    (∀ n es, EntriesSerializable es → EntriesFit es → n + 1 < 2 ^ 64 →
      (internalSer tag (.newtypeVariant name i vn (.map (some n) es))).run.exec
        = (varint 64 (n + 1) ++ block (utf8 tag) ++ block (utf8 vn) ++ wireEntries es, .ok ())) := by
  have key : ∀ v : Val, Serializable v → Fits v → (implOfVal v).run.exec = (wire v, .ok ()) := by
    intro v hs hf
    rw [run_implOfVal, WCode.exec_ofProg]
    exact Ser.exec_ser v hs hf
  refine ⟨?_, fun fs hs hf => ⟨?_, fun s => ?_⟩, fun n es hs hf hn => ?_⟩
  · have := key (.struct name [(tag, .str vn)]) (by simp [Serializable, FieldsSerializable])
      (by simpa [Fits, FieldsFit] using hv)
    rw [wire, wireFields, wire, wireFields, List.append_nil] at this
    exact this
  · have := key (.struct name ((tag, .str vn) :: fs)) ⟨by simp [Serializable], hs⟩
      ⟨by simpa [Fits] using hv, hf⟩
    rw [wire, wireFields, wire] at this
    exact this
  · have := key (.struct s ((tag, .str vn) :: fs)) ⟨by simp [Serializable], hs⟩
      ⟨by simpa [Fits] using hv, hf⟩
    rw [wire, wireFields, wire] at this
    exact this
  · have := key (.map (some (n + 1)) ((.str tag, .str vn) :: es))
      ⟨trivial, by simp [Serializable], hs⟩
      ⟨by intro m hm; cases hm; exact hn, by simpa [Fits] using ht, by simpa [Fits] using hv, hf⟩
    rw [wire, wireEntries, wire, wire, lengthPrefix] at this
    simp only [List.append_assoc] at this ⊢
    exact this

/-- No input can be read as such a value: the deserializer panics before it reads a byte. -/
theorem C111_buffered {Content : Type} (t : Target) (pick : Content → Impl Val) (bs : List UInt8) :
    Prog.execAt t ((bufferedDe pick).run t) bs = (.panic .todo, bs) := by
  rw [bufferedDe, Impl.run, Impl.run]
  rfl

/-- Nor as a value of a struct with a flattened field, unless it has nothing but defaults: `Ok` is
returned for empty maps only, with what is made of no entries. -/
theorem C111_flatten {Content : Type} (t : Target)
    (finish : List (UInt16 × Content) → Except DeErr Val) (fin : Ending) (bs rest : List UInt8)
    (v : Val) (h : Prog.exec t fin ((flattenDe finish).run t) bs = .ok (v, rest)) :
    finish [] = .ok v ∧
      ∃ n, Prog.exec t fin (de t .u64) bs = .ok (.u64 n, rest) ∧ t.asUsize n = 0 := by
  rw [flattenDe, Impl.run, Prog.exec_bind] at h
  cases hx : Prog.exec t fin (io PrefixVarint.decodeU64) bs with
  | err e => rw [hx] at h; cases h
  | panic q => rw [hx] at h; cases h
  | ok r =>
    obtain ⟨n, r⟩ := r
    rw [hx, Prog.next_ok, visitFlat, MapImpl.run] at h
    have hu : Prog.exec t fin (de t .u64) bs = .ok (.u64 n, r) := by
      rw [de, deU64, Prog.bind_eq, Prog.exec_bind, hx]; rfl
    by_cases hc : t.asUsize n > 0
    · rw [if_pos hc, Prog.exec_bind] at h
      cases hk : Prog.exec t fin (Impl.identifier.run t) r with
      | err e => rw [hk] at h; cases h
      | panic q => rw [hk] at h; cases h
      | ok k =>
        rw [hk, Prog.next_ok] at h
        dsimp only at h
        rw [MapImpl.run, Impl.run] at h
        cases h
    · rw [if_neg hc] at h
      dsimp only at h
      cases hf : finish [] with
      | error e => rw [hf] at h; cases h
      | ok w =>
        rw [hf] at h
        obtain ⟨rfl, rfl⟩ := Prod.mk.inj (Outcome.ok.inj h)
        exact ⟨rfl, n, hu, by omega⟩

/-- What serialization writes for such a struct makes it panic. -/
theorem C111_flatten_panics {Content : Type} (t : Target)
    (finish : List (UInt16 × Content) → Except DeErr Val) (items : List FlatItem)
    (n : String) (v : Val) (es : List (String × Val))
    (he : items.flatMap (·.entries) = (n, v) :: es) (c : UInt8) (cs : List UInt8)
    (hn : utf8 n = c :: cs) (hc : c < 128) (hl : (utf8 n).length < 2 ^ t.ptr.bits)
    (bs : List UInt8) (hw : (flattenSer items).run.exec = (bs, .ok ())) (more : List UInt8) :
    Prog.run t ((flattenDe finish).run t) (bs ++ more) = .panic .todo := by
  have hp : t.ptr.bits ≤ 64 := by cases t.ptr <;> decide
  have hlt : (utf8 n).length < 2 ^ 64 :=
    Nat.lt_of_lt_of_le hl (Nat.pow_le_pow_right (by decide) hp)
  obtain ⟨d, rfl⟩ : ∃ d, bs = varint 64 (utf8 n).length ++ (c :: d) := by
    rw [flattenSer, he, List.map_cons, SerImpl.run, mapOfVals, MapSer.run, implOfVal,
      SerImpl.runKey] at hw
    have h1 : (WCode.ofProg (Ser.serHint none)).try_ = fun q => q := rfl
    rw [h1] at hw
    rw [WCode.exec_andThen_result (o := block (utf8 n)) (r := none)
      (by rw [WCode.exec_ofProg, Ser.exec_serStr n hlt]; rfl)] at hw
    have := congrArg Prod.fst hw
    rw [block, hn] at this
    exact ⟨_, by rw [hn]; exact this.symm.trans (by rw [List.append_assoc, List.cons_append])⟩
  rw [flattenDe, Prog.run, Impl.run, Prog.exec_bind, List.append_assoc,
    exec_u64_varint t _ _ hlt, Prog.next_ok, asUsize_ofNat hl, visitFlat, MapImpl.run,
    if_pos (by rw [hn]; simp), Prog.exec_bind, Impl.run, deU16]
  have hv : varint 16 c.toNat = [c] := by
    rw [varint_byte 16 c.toNat (by omega) hc, UInt8.ofNat_toNat]
  have hk := exec_u16_varint t .eof c.toNat (by have := c.toNat_lt; omega) (d ++ more)
  rw [hv] at hk
  rw [List.cons_append, ← List.singleton_append, hk, Prog.next_ok]
  dsimp only
  rw [MapImpl.run, Impl.run]
  rfl

/-- `enum E { A { x: u8 }, B { x: String } }` -/
def variantsTy : RTy := .enum "E" [.mk [] "A" (.named [.mk [] "x" .u8]),
  .mk [] "B" (.named [.mk [] "x" .string])]

/-- `struct T { b: u8 }`, `struct S { a: u8, rest: T }` -/
def nestedTy : RTy := .struct "S" (.named [.mk [] "a" .u8,
  .mk [] "rest" (.struct "T" (.named [.mk [] "b" .u8]))])

/-- `#[derive(SerializeHeader)]` does not look at these attributes: the header is that of the type
without them, and under it the data are read as other data. For `E::A { x: 1 }` with `untagged`,
followed by the string `"hi"`, one gets `E::B { x: "hi" }`; for `E::A { x: 1 }` with `tag`,
`E::B { x }` with `x` taken from whatever follows; for `S { a: 7, rest: T { b: 8 } }` with `rest`
flattened, `S { a: 1, rest: T { b: 97 } }`. -/
theorem C111_header (t : Target) (mode : BuildMode) (size : Nat)
    (hm : 2 * size ≤ t.memLimit) (hp : 2 * size ≤ t.isizeMax) :
    Announces variantsTy (.enum [.uint8, .string]) ∧
    Announces nestedTy (.tuple [.uint8, .tuple [.uint8]]) ∧
    (untaggedSer (.structVariant "E" 0 "A" [("x", .u8 1)])).run.exec = ([1], .ok ()) ∧
    Prog.run t (Body.de t mode size (.enum [.uint8, .string])) ([1] ++ (Ser.toVec (.str "hi")).1)
      = .ok (.enum 1 (.string "hi"), []) ∧
    (internalSer "tag" (.structVariant "E" 0 "A" [("x", .u8 1)])).run.exec = ([1, 65, 1], .ok ()) ∧
    (∀ more, Prog.run t (Body.de t mode size (.enum [.uint8, .string])) ([1, 65, 1] ++ more)
      = (Prog.run t (deString t) ([65, 1] ++ more)).map fun r => (.enum 1 (.string r.1), r.2)) ∧
    (flattenSer [.own "a" (.u8 7), .flat [("b", .u8 8)]]).run.exec
      = ([1, 97, 7, 1, 98, 8], .ok ()) ∧
    Prog.run t (Body.de t mode size (.tuple [.uint8, .tuple [.uint8]])) [1, 97, 7, 1, 98, 8]
      = .ok (.tuple [.uint8 1, .tuple [.uint8 97]], [7, 1, 98, 8]) := by
  have alloc : ∀ n, n ≤ 2 → t.allocate (n * size) = none := by
    intro n hn
    have : n * size ≤ 2 * size := Nat.mul_le_mul_right _ hn
    rw [Target.allocate, if_neg (by omega), if_neg (by omega)]
  refine ⟨(announces_iff _ _).mpr ⟨.enum _ _ _ (by decide) ?_, by simp [Countable, AllCountable]⟩,
    (announces_iff _ _).mpr ⟨?_, by simp [Countable, AllCountable]⟩, by decide +kernel, ?_,
    by decide +kernel, fun more => ?_, by decide +kernel, ?_⟩
  · exact .cons _ _ _ _ (.one _ _ .u8) (.cons _ _ _ _ (.one _ _ .string) .nil)
  · exact .struct _ _ _ (by decide) (.cons _ _ _ _ .u8 (.cons _ _ _ _
      (.struct _ _ _ (by decide) (.cons _ _ _ _ .u8 .nil)) .nil))
  · obtain ⟨w, l⟩ := t
    cases w <;> rfl
  · have hi := exec_u32_varint t .eof 1 (by decide) (65 :: 1 :: more)
    rw [varint_byte 32 1 (by omega) (by omega)] at hi
    rw [Prog.run, Body.de, Prog.bind_eq, Prog.exec_bind, deU32]
    rw [show ([1, 65, 1] ++ more : List UInt8) = [UInt8.ofNat 1] ++ 65 :: 1 :: more from rfl, hi,
      Prog.next_ok]
    show Prog.exec t .eof (Prog.bind (Body.deNth t mode size 1 _) _) _ = _
    rw [Body.deNth, Body.deNth, Body.de, Prog.exec_bind, Prog.bind_eq, Prog.exec_bind, Prog.run]
    cases h : Prog.exec t .eof (deString t) ([65, 1] ++ more) <;> rw [List.cons_append,
      List.cons_append, List.nil_append] at h <;> rw [h] <;> rfl
  · have h2 := alloc 2 (by decide)
    have h1 := alloc 1 (by decide)
    have hrun : Prog.run t (Body.de t mode size (.tuple [.uint8, .tuple [.uint8]]))
          [1, 97, 7, 1, 98, 8] =
        match t.allocate (2 * size) with
        | some w => .panic w
        | none => match t.allocate (1 * size) with
          | some w => .panic w
          | none => .ok (.tuple [.uint8 1, .tuple [.uint8 97]], [7, 1, 98, 8]) := by
      rw [Prog.run, Body.de, Prog.exec]
      simp only [List.length_cons, List.length_nil, Nat.zero_add]
      cases t.allocate (2 * size) with
      | some w => rfl
      | none =>
        show Prog.exec t .eof (Prog.bind (Body.deAll t mode size _) _) _ = _
        rw [Body.deAll, Prog.bind_eq, Prog.exec_bind, Prog.exec_bind, Body.de]
        show Prog.next (Prog.exec t .eof (Prog.bind (Body.deAll t mode size _) _)
          [97, 7, 1, 98, 8]) _ = _
        rw [Body.deAll, Prog.bind_eq, Prog.exec_bind, Prog.exec_bind, Body.de, Prog.exec]
        simp only [List.length_cons, List.length_nil, Nat.zero_add]
        cases t.allocate (1 * size) <;> rfl
    rw [hrun, h2]
    dsimp only
    rw [h1]

/-- `struct S { a: u8, #[serde(flatten)] rest: T }` with `struct T { b: u8 }`: the names are
written, but no count of the entries. -/
example : (flattenSer [.own "a" (.u8 7), .flat [("b", .u8 8)]]).run.exec
      = ([1, 97, 7, 1, 98, 8], .ok ()) ∧
    ∀ (finish : List (UInt16 × Unit) → Except DeErr Val) (t : Target),
      Prog.run t ((flattenDe finish).run t) [1, 97, 7, 1, 98, 8] = .panic .todo := by
  have h : (flattenSer [.own "a" (.u8 7), .flat [("b", .u8 8)]]).run.exec
      = ([1, 97, 7, 1, 98, 8], .ok ()) := by decide +kernel
  refine ⟨h, fun finish t => ?_⟩
  have := C111_flatten_panics t finish [.own "a" (.u8 7), .flat [("b", .u8 8)]] "a" (.u8 7)
    [("b", .u8 8)] rfl 97 [] (by decide +kernel) (by decide) (by cases t.ptr <;> decide +kernel) _ h []
  exact this

end Dlhn.Props
