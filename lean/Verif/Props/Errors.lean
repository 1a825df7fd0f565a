import Verif.Proof.Errors
import Verif.Props.Body
import Verif.Props.Targets
/-!
# C105: which errors there are

What a caller who handles errors must expect. Decoding a type reports only the kinds of
errors listed for the type in Spec/Errors.lean, and each of these kinds does occur. Dynamic
values only ever report `Read`. What `serialize` reports is the first fault of the value,
and otherwise failures of the writer.
-/
namespace Dlhn.Props

open Spec De

/-- The errors of decoding a type that occur on some input are those of `Raises`. -/
theorem C105_typed (t : Target) (ty : Ty) (f : Fault) :
    (∃ bs e, f.Is e ∧ Prog.run t (de t ty) bs = .err e) ↔ Raises f ty := by
  constructor
  · rintro ⟨bs, e, he, h⟩
    have := (outcomes_de t ty).exec t .eof bs
    rw [show Prog.exec t .eof (de t ty) bs = .err e from h] at this
    obtain ⟨g, hg, hr⟩ := this
    have : f = g := by
      cases f <;> cases g <;> simp only [Fault.Is] at he hg <;> first
        | rfl
        | (subst he; cases hg; done)
        | (subst hg; cases he; done)
        | (obtain ⟨_, rfl⟩ := he; cases hg; done)
        | (obtain ⟨_, rfl⟩ := hg; cases he; done)
    exact this ▸ hr
  · intro h
    obtain ⟨bs, hb⟩ := fails_de t f ty h
    obtain ⟨e, he, h⟩ := hb .eof
    exact ⟨bs, e, he, h⟩

/-- On every reader, whatever it delivers and however it fails: an error is of one of the
kinds of the type. In particular `UnsupportedKeyType` is never reported. -/
theorem C105_reader (t : Target) (ty : Ty) (size : Nat → Nat) (s : Script) (e : DeErr)
    (h : Prog.runScript t size (de t ty) s = .err e) : ∃ f : Fault, f.Is e ∧ Raises f ty := by
  have := (outcomes_de t ty).runScript t size s
  rw [h] at this
  exact this

theorem C105_no_key_error (t : Target) (ty : Ty) (size : Nat → Nat) (s : Script) :
    Prog.runScript t size (de t ty) s ≠ .err .unsupportedKeyType := fun h => by
  obtain ⟨f, hf, -⟩ := C105_reader t ty size s _ h
  cases f <;> simp [Fault.Is] at hf

/-- There is an input that is decoded exactly for the types of `Accepts`, on every target
and with any amount of memory. -/
theorem C105_accepts (t : Target) (ty : Ty) :
    (∃ bs v rest, Prog.run t (de t ty) bs = .ok (v, rest)) ↔ Accepts ty := by
  constructor
  · rintro ⟨bs, v, rest, h⟩
    have := (outcomes_de t ty).exec t .eof bs
    rw [show Prog.exec t .eof (de t ty) bs = .ok (v, rest) from h] at this
    exact this
  · intro h
    obtain ⟨bs, hb⟩ := accepts_de t ty h
    obtain ⟨v, h⟩ := hb .eof []
    exact ⟨_, v, _, h⟩

/-- The sample type has characters and an enum: every kind occurs, and values do too. -/
example (t : Target) : (∀ f : Fault, ∃ bs e, f.Is e ∧ Prog.run t (de t sampleTy) bs = .err e) ∧
    ∃ bs v rest, Prog.run t (de t sampleTy) bs = .ok (v, rest) :=
  ⟨fun f => (C105_typed t sampleTy f).mpr (by
      cases f <;> simp [sampleTy, Raises, AnyFieldRaises, AnyVariantRaises, PayloadRaises, Accepts]),
   (C105_accepts t sampleTy).mpr (by
      simp [sampleTy, Accepts, FieldsAccept, SomeVariantAccepts, PayloadAccepts])⟩

/-- Without characters and enums only `Read` is left. -/
example (t : Target) (bs : List UInt8) (e : DeErr)
    (h : Prog.run t (de t (.map .string (.seq (.tuple [.u8, .option .f32])))) bs = .err e) :
    e = .read := by
  by_cases he : e = .read
  · exact he
  · exfalso
    have hk : ∃ f : Fault, f.Is e ∧ Raises f (.map .string (.seq (.tuple [.u8, .option .f32]))) := by
      have := (outcomes_de t (.map .string (.seq (.tuple [.u8, .option .f32])))).exec t .eof bs
      rw [show Prog.exec t .eof _ bs = .err e from h] at this
      exact this
    obtain ⟨f, hf, hr⟩ := hk
    have hr : f = .read := by
      rcases f with _ | _ | _ <;> simp [Raises, AnyRaises] at hr <;> rfl
    subst hr
    exact he hf

/-- Concretely: a missing character and an unknown index after decodable fields, and missing
bytes. -/
example :
    Prog.run ⟨.w64, 4096⟩ (de ⟨.w64, 4096⟩ sampleTy) [0, 0, 1, 0] = .err .charSize ∧
    (∃ s, Prog.run ⟨.w64, 4096⟩ (de ⟨.w64, 4096⟩ sampleTy) [0, 0, 3] = .err (.message s)) ∧
    Prog.run ⟨.w64, 4096⟩ (de ⟨.w64, 4096⟩ sampleTy) [0, 0] = .err .read := by
  refine ⟨rfl, ⟨_, rfl⟩, rfl⟩

/-- Dynamic values: the only error is `Read`. -/
theorem C105_body (t : Target) (mode : BuildMode) (size : Nat) (h : Header) (bufs : Nat → Nat)
    (s : Script) (e : DeErr) (he : Prog.runScript t bufs (Body.de t mode size h) s = .err e) :
    e = .read := by
  have := (Body.outcomes_body (R := (· = .read)) rfl t mode size h).runScript t bufs s
  rw [he] at this
  exact this

example : (Prog.runScript ⟨.w64, 4096⟩ (fun _ => 7)
      (Body.de ⟨.w64, 4096⟩ .debug 56 (.enum [.unit])) [.data [9]]).map (fun _ => ()) =
    .err .read := by decide +kernel

/-- Derived types: an error is `Read`, unless some part of the type checks its values. (The
third alternative is for types that rustc rejects.) -/
theorem C105_derived (t : Target) (mode : BuildMode) (env : Derive.Env) (T : RTy)
    (bufs : Nat → Nat) (s : Script) (e : DeErr)
    (he : Prog.runScript t bufs (Derive.deTy t mode env T) s = .err e) :
    e = .read ∨ (∃ m, e = .message m) ∧ ∃ U ∈ readParts T, CheckingPart U ∨ NotCompiling env U := by
  have := (Derive.outcomes_deTy t mode env T).runScript t bufs s
  rw [he] at this
  exact this

/-- Without such parts only `Read` is left. -/
theorem C105_derived_plain (t : Target) (mode : BuildMode) (env : Derive.Env) (T : RTy)
    (hp : ∀ U ∈ readParts T, ¬ CheckingPart U ∧ ¬ NotCompiling env U) (bufs : Nat → Nat)
    (s : Script) (e : DeErr) (he : Prog.runScript t bufs (Derive.deTy t mode env T) s = .err e) :
    e = .read := by
  rcases C105_derived t mode env T bufs s e he with h | ⟨-, U, hU, hc⟩
  · exact h
  · exact absurd hc (not_or.mpr (hp U hU))

/-- Such a type. -/
example (env : Derive.Env) : ∀ U ∈ readParts (.struct "P" (.named [.mk [] "x" (.vec .date),
      .mk [] "y" (.option .bigInt)])), ¬ CheckingPart U ∧ ¬ NotCompiling env U := by
  simp [readParts, readPartsFields, CheckingPart, NotCompiling, ownFields, declared, fieldAttrs,
    SkippedDe, HasSerdeItem]

/-- And a part that checks: 2001 has no 366th day. -/
example (env : Derive.Env) : ∃ m, Prog.run ⟨.w64, 4096⟩
    (Derive.deTy ⟨.w64, 4096⟩ .release env .timeDate) [2, 173, 5] = .err (.message m) :=
  ⟨_, rfl⟩

/-- Serializing: the outcome is the first fault of the value, in the order of its parts. -/
theorem C105_ser (v : Val) : (Ser.toVec v).2 = match (faults v).head? with
    | none => .ok ()
    | some e => .err e := Ser.faults_ser v

/-- On any writer: an error is the writer's, reported as `Write`, or this first fault. -/
theorem C105_writer (v : Val) (s : WScript) (e : SerErr)
    (he : ((Ser.ser v).runScript s).2 = .err e) : e = .write ∨ (faults v).head? = some e := by
  rcases C27_failing_writer v s with h | ⟨h, -⟩
  · rw [h, C105_ser] at he
    cases hf : (faults v).head? with
    | none => rw [hf] at he; cases he
    | some e' => rw [hf] at he; cases he; exact .inr rfl
  · rw [h] at he; cases he; exact .inl rfl

/-- Two faults; the key of the first entry comes before the 128-bit integer. -/
example : faults (.struct "S" [("a", .u8 1), ("b", .map none [(.u8 1, .u128 2)])]) =
      [.unsupportedKeyType, .message "u128 is not supported"] ∧
    (Ser.toVec (.struct "S" [("a", .u8 1), ("b", .map none [(.u8 1, .u128 2)])])).2 =
      .err .unsupportedKeyType := ⟨rfl, rfl⟩

end Dlhn.Props
