import Verif.Proof.Adjacent
import Verif.Props.Attrs
/-!
# C133: adjacently tagged enums
-/
namespace Dlhn.Props

open De Spec

/-- Where serde passes the tag on as a variant, a value is written like one of the enum without the
attribute: with the same calls on any writer, and so under the same header. -/
theorem C133_written_by_variant (tag content : String) (v : Val)
    (hv : (variantOf v).isSome) :
    (adjacentSer .byVariant tag content v).run = (implOfVal v).run := by
  have hw := fun w : Val => run_implOfVal (.struct "" [(tag, w)])
  have h2 := fun w u : Val => run_implOfVal (.struct "" [(tag, w), (content, u)])
  cases v <;> simp only [variantOf, Option.isSome, Bool.false_eq_true] at hv
  case unitVariant n j x =>
    refine (hw (.unitVariant n j x)).trans ?_
    rw [run_implOfVal]
    simp only [Ser.ser, Ser.serFields, andThen_skip_prog]
  case newtypeVariant n j x w =>
    refine (h2 (.unitVariant n j x) w).trans ?_
    rw [run_implOfVal]
    simp only [Ser.ser, Ser.serFields, andThen_skip_prog]
  case tupleVariant n j x ws =>
    refine (h2 (.unitVariant n j x) (.tuple ws)).trans ?_
    rw [run_implOfVal]
    simp only [Ser.ser, Ser.serFields, andThen_skip_prog]
  case structVariant n j x fs =>
    refine (h2 (.unitVariant n j x) (.struct x fs)).trans ?_
    rw [run_implOfVal]
    simp only [Ser.ser, Ser.serFields, andThen_skip_prog]

/-- Where it passes the tag on as a string, the name of the variant is written instead of its
index. -/
theorem C133_written_by_name (tag content : String) (v : Val) (i : UInt32) (vn : String)
    (hv : variantOf v = some (i, vn)) (hs : Serializable v) (hf : Fits v)
    (hn : (utf8 vn).length < 2 ^ 64) :
    (adjacentSer .byName tag content v).run.exec = (block (utf8 vn) ++ payloadWire v, .ok ()) := by
  have key : ∀ v : Val, Serializable v → Fits v → (implOfVal v).run.exec = (wire v, .ok ()) := by
    intro v hs hf
    rw [run_implOfVal, WCode.exec_ofProg]
    exact Ser.exec_ser v hs hf
  have hw := key (.struct "" [(tag, .str vn)]) (by simp [Serializable, FieldsSerializable])
    (by simpa [Fits, FieldsFit] using hn)
  have h2 := fun (u : Val) (h1 : Serializable u) (h2 : Fits u) =>
    key (.struct "" [(tag, .str vn), (content, u)])
      (by simpa [Serializable, FieldsSerializable] using h1)
      (by simpa [Fits, FieldsFit] using ⟨hn, h2⟩)
  simp only [wire, wireFields, List.append_nil] at hw h2
  cases v <;> simp only [variantOf, Option.some.injEq, Prod.mk.injEq, reduceCtorEq] at hv
  case unitVariant n j x =>
    obtain ⟨-, rfl⟩ := hv
    exact hw.trans (by simp [payloadWire])
  case newtypeVariant n j x w =>
    obtain ⟨-, rfl⟩ := hv
    exact h2 w hs hf
  case tupleVariant n j x ws =>
    obtain ⟨-, rfl⟩ := hv
    exact h2 (.tuple ws) hs hf
  case structVariant n j x fs =>
    obtain ⟨-, rfl⟩ := hv
    exact h2 (.struct x fs) hs hf

/-- An enum all of whose variants are newtype or tuple variants is read as without the attribute,
on every input. -/
theorem C133_read_alike (t : Target) (g : Tagging) (tag content name : String)
    (vs : List (String × VTy)) (htc : tag ≠ content) (hd : VariantsDistinct vs)
    (hc : AllContent vs) :
    (adjacentDe g tag content name vs).run t = de t (.enum name vs) := by
  rw [run_adjacentDe t g tag content name vs htc hd, de, Prog.bind_eq]
  congr; funext i
  rw [deVariant_own]
  cases h : vs[i.toNat]? with
  | none => rfl
  | some p =>
    obtain ⟨vn, vt⟩ := p
    rcases hc _ (List.mem_of_getElem? h) with ⟨ty, rfl⟩ | ⟨ts, rfl⟩ <;> rfl

/-- Any other is read as without the attribute or the deserializer panics. It does for every input
that holds a value of a unit or struct variant, and never returns one. -/
theorem C133_read (t : Target) (g : Tagging) (tag content name : String)
    (vs : List (String × VTy)) (htc : tag ≠ content) (hd : VariantsDistinct vs)
    (fin : Ending) (bs : List UInt8) :
    (Prog.exec t fin ((adjacentDe g tag content name vs).run t) bs
        = Prog.exec t fin (de t (.enum name vs)) bs ∨
      Prog.exec t fin ((adjacentDe g tag content name vs).run t) bs = .panic .todo) ∧
    ∀ v rest, Prog.exec t fin (de t (.enum name vs)) bs = .ok (v, rest) →
      Prog.exec t fin ((adjacentDe g tag content name vs).run t) bs
        = if hasContent v then .ok (v, rest) else .panic .todo := by
  rw [run_adjacentDe t g tag content name vs htc hd, de, Prog.bind_eq, Prog.exec_bind,
    Prog.exec_bind]
  cases hx : Prog.exec t fin (io PrefixVarint.decodeU16) bs with
  | err e => exact ⟨.inl rfl, fun v rest h => by cases h⟩
  | panic q => exact ⟨.inl rfl, fun v rest h => by cases h⟩
  | ok r =>
    obtain ⟨i, r⟩ := r
    rw [Prog.next_ok, Prog.next_ok, deVariant_own]
    cases h : vs[i.toNat]? with
    | none => exact ⟨.inl rfl, fun v rest h => by cases h⟩
    | some p =>
      obtain ⟨vn, vt⟩ := p
      dsimp only
      cases vt with
      | unit =>
        refine ⟨.inr rfl, fun v rest h => ?_⟩
        obtain ⟨rfl, rfl⟩ := Prod.mk.inj (Outcome.ok.inj h)
        rfl
      | newtype ty =>
        rw [adjacentPayload]
        refine ⟨.inl rfl, fun v rest h => ?_⟩
        rw [h]
        rw [dePayload, Prog.bind_eq, Prog.exec_bind] at h
        cases hy : Prog.exec t fin (de t ty) r with
        | err e => rw [hy] at h; cases h
        | panic q => rw [hy] at h; cases h
        | ok y =>
          rw [hy] at h
          obtain ⟨rfl, rfl⟩ := Prod.mk.inj (Outcome.ok.inj h)
          rfl
      | tuple ts =>
        rw [adjacentPayload]
        refine ⟨.inl rfl, fun v rest h => ?_⟩
        rw [h]
        rw [dePayload, Prog.bind_eq, Prog.exec_bind] at h
        cases hy : Prog.exec t fin (deAll t ts) r with
        | err e => rw [hy] at h; cases h
        | panic q => rw [hy] at h; cases h
        | ok y =>
          rw [hy] at h
          obtain ⟨rfl, rfl⟩ := Prod.mk.inj (Outcome.ok.inj h)
          rfl
      | struct fs =>
        refine ⟨.inr rfl, fun v rest h => ?_⟩
        rw [dePayload, Prog.bind_eq, Prog.exec_bind] at h
        cases hy : Prog.exec t fin (deFields t fs) r with
        | err e => rw [hy] at h; cases h
        | panic q => rw [hy] at h; cases h
        | ok y =>
          rw [hy] at h
          obtain ⟨rfl, rfl⟩ := Prod.mk.inj (Outcome.ok.inj h)
          rfl

/-- Writing and reading: where the tag is passed on as a variant, values of newtype and tuple
variants come back, and those of the others make the deserializer panic. -/
theorem C133_round_trip (t : Target) (hm : 4096 ≤ t.memLimit) (tag content name : String)
    (vs : List (String × VTy)) (htc : tag ≠ content) (hd : VariantsDistinct vs)
    (hs : Supported (.enum name vs)) (v : Val) (hv : Has t (.enum name vs) v) :
    ∃ enc, (adjacentSer .byVariant tag content v).run.exec = (enc, .ok ()) ∧
      ∀ more, Prog.run t ((adjacentDe .byVariant tag content name vs).run t) (enc ++ more)
        = if hasContent v then .ok (v, more) else .panic .todo := by
  obtain ⟨enc, h1, h2⟩ := C07_roundtrip t hm _ hs v hv
  refine ⟨enc, ?_, fun more => ?_⟩
  · rw [C133_written_by_variant tag content v (variantOf_has t name vs 0 v hv), run_implOfVal,
      WCode.exec_ofProg]
    exact h1
  · exact (C133_read t .byVariant tag content name vs htc hd .eof (enc ++ more)).2 v more (h2 more)

/-- Where the tag is passed on as a string, the length of the name of the variant is taken for the
index of a variant, and its letters for the beginning of the content: it is an error if there are
no so many variants. -/
theorem C133_confused (t : Target) (tag content name : String) (vs : List (String × VTy))
    (htc : tag ≠ content) (hd : VariantsDistinct vs) (v : Val) (i : UInt32) (vn : String)
    (hv : variantOf v = some (i, vn)) (hs : Serializable v) (hf : Fits v)
    (hn : (utf8 vn).length < 16384) (more : List UInt8) :
    ∃ enc, (adjacentSer .byName tag content v).run.exec = (enc, .ok ()) ∧
    (vs.length ≤ (utf8 vn).length →
      Prog.run t ((adjacentDe .byName tag content name vs).run t) (enc ++ more)
        = .err (unknownVariant (utf8 vn).length vs.length)) ∧
    (∀ wn ty, vs[(utf8 vn).length]? = some (wn, .newtype ty) →
      Prog.run t ((adjacentDe .byName tag content name vs).run t) (enc ++ more)
        = (Prog.run t (de t ty) (utf8 vn ++ payloadWire v ++ more)).map fun r =>
            (.newtypeVariant name (UInt32.ofNat (utf8 vn).length) wn r.1, r.2)) ∧
    (∀ wn ts, vs[(utf8 vn).length]? = some (wn, .tuple ts) →
      Prog.run t ((adjacentDe .byName tag content name vs).run t) (enc ++ more)
        = (Prog.run t (deAll t ts) (utf8 vn ++ payloadWire v ++ more)).map fun r =>
            (.tupleVariant name (UInt32.ofNat (utf8 vn).length) wn r.1, r.2)) ∧
    (∀ wn, vs[(utf8 vn).length]? = some (wn, .unit) ∨
        (∃ fs, vs[(utf8 vn).length]? = some (wn, .struct fs)) →
      Prog.run t ((adjacentDe .byName tag content name vs).run t) (enc ++ more)
        = .panic .todo) := by
  have hlen : (utf8 vn).length < 2 ^ 64 := by omega
  refine ⟨_, C133_written_by_name tag content v i vn hv hs hf hlen, ?_⟩
  have hr : ∀ k : UInt16 → Prog DeErr Val,
      Prog.run t (Prog.bind (io PrefixVarint.decodeU16) k) (block (utf8 vn) ++ payloadWire v ++ more)
        = Prog.run t (k (UInt16.ofNat (utf8 vn).length)) (utf8 vn ++ payloadWire v ++ more) := by
    intro k
    rw [block, List.append_assoc, List.append_assoc, varint_64_16 _ hn, Prog.run, Prog.exec_bind,
      exec_u16_varint t _ _ (by omega), Prog.next_ok, List.append_assoc, Prog.run]
  have hi : (UInt16.ofNat (utf8 vn).length).toNat = (utf8 vn).length := by
    rw [UInt16.toNat_ofNat', Nat.mod_eq_of_lt (by omega)]
  have hu : (UInt16.ofNat (utf8 vn).length).toUInt32 = UInt32.ofNat (utf8 vn).length := by
    apply UInt32.toNat_inj.mp
    rw [UInt16.toNat_toUInt32, hi, UInt32.toNat_ofNat', Nat.mod_eq_of_lt (by omega)]
  rw [run_adjacentDe t .byName tag content name vs htc hd, hr, hi, hu]
  refine ⟨fun h => ?_, fun wn ty h => ?_, fun wn ts h => ?_, fun wn h => ?_⟩
  · rw [List.getElem?_eq_none h]; rfl
  · rw [h]
    dsimp only
    rw [adjacentPayload, dePayload, Prog.bind_eq, Prog.run, Prog.exec_bind, Prog.run]
    cases Prog.exec t .eof (de t ty) (utf8 vn ++ payloadWire v ++ more) <;> rfl
  · rw [h]
    dsimp only
    rw [adjacentPayload, dePayload, Prog.bind_eq, Prog.run, Prog.exec_bind, Prog.run]
    cases Prog.exec t .eof (deAll t ts) (utf8 vn ++ payloadWire v ++ more) <;> rfl
  · rcases h with h | ⟨fs, h⟩ <;> rw [h] <;> rfl

/-! ## The cases occur -/

/-- `enum E { A(u8), B(u8, String), C, D { x: u8 } }` -/
def adjacentVariants : List (String × VTy) :=
  [("A", .newtype .u8), ("B", .tuple [.u8, .string]), ("C", .unit), ("D", .struct [("x", .u8)])]

/-- `E::A(5)`: with the newer serde, written and read as without the attribute; with the older,
read as `E::B(65, ..)`. `E::C` cannot be read. -/
example :
    (adjacentSer .byVariant "t" "c" (.newtypeVariant "E" 0 "A" (.u8 5))).run.exec
      = ([0, 5], .ok ()) ∧
    Prog.run ⟨.w64, 4096⟩ ((adjacentDe .byVariant "t" "c" "E" adjacentVariants).run ⟨.w64, 4096⟩) [0, 5]
      = .ok (.newtypeVariant "E" 0 "A" (.u8 5), []) ∧
    (adjacentSer .byName "t" "c" (.newtypeVariant "E" 0 "A" (.u8 5))).run.exec
      = ([1, 65, 5], .ok ()) ∧
    Prog.run ⟨.w64, 4096⟩ ((adjacentDe .byName "t" "c" "E" adjacentVariants).run ⟨.w64, 4096⟩)
      ([1, 65, 5] ++ [104, 101, 108, 108, 111, 33])
      = .ok (.tupleVariant "E" 1 "B" [.u8 65, .str "hello"], [33]) ∧
    (adjacentSer .byVariant "t" "c" (.unitVariant "E" 2 "C")).run.exec = ([2], .ok ()) ∧
    Prog.run ⟨.w64, 4096⟩ ((adjacentDe .byVariant "t" "c" "E" adjacentVariants).run ⟨.w64, 4096⟩) [2]
      = .panic .todo := by
  refine ⟨by decide +kernel, rfl, by decide +kernel, rfl, by decide +kernel, rfl⟩

end Dlhn.Props
