import Verif.Props.After
import Verif.Props.DeriveIo
import Verif.Props.Rec
import Verif.Props.Visit
/-!
# C102: written data on every target

On 32-bit targets some inputs that nobody wrote are misread (property C59), and
theorems about arbitrary input are limited to 64-bit targets. The theorems here say
what holds on every target. `Recognised t p enc v` (Spec/Targets.lean) says that the
decoder `p` reads `enc` as `v` from every reader that delivers it, and reports
`Err(Read)` on every reader that delivers less.
-/
namespace Dlhn.Props

open Spec De

/-- What serialization writes, by type. -/
theorem C102_typed (t : Target) (hm : 4096 ≤ t.memLimit) (ty : Ty) (hs : Supported ty) (v : Val)
    (hv : Has t ty v) :
    ∃ enc, Ser.toVec v = (enc, .ok ()) ∧ Recognised t (de t ty) enc v := by
  obtain ⟨enc, h1, h2⟩ := C07_roundtrip t hm ty hs v hv
  exact ⟨enc, h1, Prog.recognised (tame_de t ty) (h2 [0]) (by simp)⟩

/-- A 32-bit target. -/
example : ∃ enc, Ser.toVec sampleVal = (enc, .ok ()) ∧
    Recognised ⟨.w32, 4096⟩ (de ⟨.w32, 4096⟩ sampleTy) enc sampleVal :=
  C102_typed _ (by decide) _ sampleTy_supported _ (sampleVal_has _)

/-- The same for recursive types, with enough stack. -/
theorem C102_recursive (t : Target) (hm : 4096 ≤ t.memLimit) (defs : Rec.Defs)
    (hs : ∀ n, RecSupported (defs n)) (n : String) (d : Nat) (v : Val) (hv : Deep t defs d n v) :
    ∃ enc, Ser.toVec v = (enc, .ok ()) ∧ Recognised t (Rec.deNamed t defs d n) enc v := by
  obtain ⟨enc, h1, h2⟩ := C84_roundtrip t hm defs hs n d v hv
  exact ⟨enc, h1, Prog.recognised (Rec.tame_named t defs d n) (h2 [0]) (by simp)⟩

example : ∃ enc, Ser.toVec sampleJson = (enc, .ok ()) ∧
    Recognised ⟨.w32, 4096⟩ (Rec.deNamed ⟨.w32, 4096⟩ sampleDefs 3 "Json") enc sampleJson :=
  C102_recursive _ (by decide) _ sampleDefs_supported _ _ _ (sampleJson_deep _)

/-- The same for dynamic values under the header they conform to. -/
theorem C102_body (t : Target) (hm : 4096 ≤ t.memLimit) (mode : BuildMode) (size : Nat)
    (h : Header) (b : Body) (hv : Body.validate h b = true) (he : Exists t b)
    (hc : CleanDecimals b) (hd : DatesFit mode b) (hf : VectorsFit t size b) :
    ∃ enc, Body.toVec mode b = (enc, .ok ()) ∧ Recognised t (Body.de t mode size h) enc b := by
  obtain ⟨enc, h1, h2⟩ := C35_roundtrip t hm mode size h b hv he hc hd hf
  exact ⟨enc, h1, Prog.recognised (Body.tame_de t mode size h) (h2 [0]) (by simp)⟩

example : ∃ enc, Body.toVec .debug sampleBody = (enc, .ok ()) ∧
    Recognised ⟨.w32, 4096⟩ (Body.de ⟨.w32, 4096⟩ .debug 56 sampleShape) enc sampleBody :=
  have ⟨h1, h2, h3, h4, h5⟩ := sampleBody_meets ⟨.w32, 4096⟩ .debug 56 (by decide)
  C102_body _ (by decide) _ _ _ _ h1 h2 h3 h4 h5

/-- The same for types that derive `Serialize` and `Deserialize`. -/
theorem C102_derived (t : Target) (hm : 4096 ≤ t.memLimit) (mode : BuildMode) (env : Derive.Env)
    (ho : FairOrder env) (T : RTy) (v : Derive.Carrier T) (hx : ReadsBack t mode env ⟨T, v⟩) :
    ∃ w enc, (Derive.ser mode T v).exec = (enc, .ok ()) ∧ Returned env T v w ∧
      Recognised t (Derive.deTy t mode env T) enc w := by
  obtain ⟨h1, h2, h3, h4, h5, h6⟩ := hx
  obtain ⟨w, bs, hs, hw, hr⟩ := C71_roundtrip t hm mode env ho T h1 h2 h3 v h4 h5 h6
  exact ⟨w, bs, hs, hw, Prog.recognised (Derive.tame_deTy t mode env T) (hr .eof [0]) (by simp)⟩

example (mode : BuildMode) : ∃ w enc,
    (Derive.ser mode recordTy recordVal).exec = (enc, .ok ()) ∧
      Returned sampleEnv recordTy recordVal w ∧
      Recognised ⟨.w32, 4096⟩ (Derive.deTy ⟨.w32, 4096⟩ mode sampleEnv recordTy) enc w :=
  C102_derived _ (by decide) mode _ sample_fair _ _ (record_reads _ (by decide) mode)

/-! ## Arbitrary input -/

/-- C25 for whatever data were read, by whatever means, on 64-bit targets and on every
target for types without text: from a reader that ends or fails within them the outcome is
`Err(Read)`. By type, ... -/
theorem C25_typed (t : Target) (ty : Ty) (ht : t.ptr = .w64 ∨ NoText ty) (bs rest : List UInt8)
    (v : Val) (h : Prog.run t (de t ty) bs = .ok (v, rest)) :
    ∃ used, bs = used ++ rest ∧ Recognised t (de t ty) used v :=
  (strict_on ht).recognised h

/-- ... by any implementation that passes errors on, ... -/
theorem C25_impl (t : Target) {α : Type} (i : Impl α) (ht : t.ptr = .w64 ∨ NoTextImpl i)
    (bs rest : List UInt8) (v : α) (h : Prog.run t (i.run t) bs = .ok (v, rest)) :
    ∃ used, bs = used ++ rest ∧ Recognised t (i.run t) used v :=
  (strict_on_impl ht).recognised h

/-- ... of derived types, ... -/
theorem C25_derived (t : Target) (mode : BuildMode) (env : Derive.Env) (T : RTy)
    (ht : t.ptr = .w64 ∨ NoTextDerived T) (bs rest : List UInt8) (v : Derive.Carrier T)
    (h : Prog.run t (Derive.deTy t mode env T) bs = .ok (v, rest)) :
    ∃ used, bs = used ++ rest ∧ Recognised t (Derive.deTy t mode env T) used v :=
  (Derive.strict_on mode env ht).recognised h

/-- ... of recursive types, ... -/
theorem C25_recursive (t : Target) (defs : Rec.Defs)
    (ht : t.ptr = .w64 ∨ ∀ n, NoTextRec (defs n)) (d : Nat) (n : String) (bs rest : List UInt8)
    (v : Val) (h : Prog.run t (Rec.deNamed t defs d n) bs = .ok (v, rest)) :
    ∃ used, bs = used ++ rest ∧ Recognised t (Rec.deNamed t defs d n) used v :=
  (Rec.strict_on ht d n).recognised h

/-- ... and of dynamic values. -/
theorem C25_dynamic (t : Target) (mode : BuildMode) (size : Nat) (hd : Header)
    (ht : t.ptr = .w64 ∨ NoTextHeader hd) (bs rest : List UInt8) (b : Body)
    (h : Prog.run t (Body.de t mode size hd) bs = .ok (b, rest)) :
    ∃ used, bs = used ++ rest ∧ Recognised t (Body.de t mode size hd) used b :=
  (Body.strict_on mode size ht).recognised h

/-- The number 300 in a form of four bytes, which is not what is written, in a pair
with a buffer, at the end of the data on a 32-bit target. -/
example : ∃ used, ([236, 18, 0, 0, 1, 9] : List UInt8) = used ++ [] ∧
    Recognised ⟨.w32, 4096⟩ (de ⟨.w32, 4096⟩ (.tuple [.u64, .byteBuf])) used
      (.tuple [.u64 300, .bytes [9]]) :=
  C25_typed _ (.tuple [.u64, .byteBuf]) (.inr ⟨trivial, trivial, trivial⟩) _ _ _ rfl

/-- The same as a dynamic value, ... -/
example : NoTextHeader (.tuple [.uint64, .binary]) ∧
    Prog.run ⟨.w32, 4096⟩ (Body.de ⟨.w32, 4096⟩ .debug 56 (.tuple [.uint64, .binary]))
      [236, 18, 0, 0, 1, 9] = .ok (.tuple [.uint64 300, .binary [9]], []) := by
  refine ⟨⟨?_, fun h' => ?_⟩, rfl⟩ <;> simp [headerParts, headersParts]

/-- ... of a derived struct, ... -/
example : NoTextDerived (.struct "P" (.named [.mk [] "a" .u64, .mk [] "b" .byteBuf])) ∧
    (Prog.run ⟨.w32, 4096⟩ (Derive.deTy ⟨.w32, 4096⟩ .debug sampleEnv
      (.struct "P" (.named [.mk [] "a" .u64, .mk [] "b" .byteBuf]))) [236, 18, 0, 0, 1, 9]) =
        .ok ((300, [9], ()), []) := by
  refine ⟨⟨?_, fun U => ⟨?_, ?_⟩⟩, rfl⟩ <;> simp [readParts, readPartsFields]

/-- ... by an implementation that refuses odd numbers, ... -/
example : NoTextImpl (.andThen .u64 fun n => if n % 2 = 0 then .ok n else .error (.message "odd")) :=
  ⟨trivial, fun n => by dsimp only; split <;> trivial⟩

/-- ... and of a linked list of numbers. -/
def numberList : Rec.Defs := fun _ => .struct "L" [("head", .leaf .u64), ("tail", .option (.named "L"))]

example : (∀ n, NoTextRec (numberList n)) ∧
    (Prog.run ⟨.w32, 4096⟩ (Rec.deNamed ⟨.w32, 4096⟩ numberList 3 "L") [236, 18, 0, 0, 1, 9, 0]) =
      .ok (.struct "L" [("head", .u64 300), ("tail", .some (.struct "L" [("head", .u64 9), ("tail", .none)]))], []) :=
  ⟨fun _ => ⟨trivial, trivial, trivial⟩, rfl⟩

/-- On every target, whatever was read with data left over is recognised, whether it
was written by this library or not. -/
theorem C102_followed (t : Target) (ty : Ty) (bs rest : List UInt8) (v : Val)
    (h : Prog.run t (de t ty) bs = .ok (v, rest)) (hr : rest ≠ []) :
    ∃ used, bs = used ++ rest ∧ Recognised t (de t ty) used v :=
  Prog.followed (tame_de t ty) h hr

theorem C102_followed_impl (t : Target) {α : Type} (i : Impl α) (bs rest : List UInt8) (v : α)
    (h : Prog.run t (i.run t) bs = .ok (v, rest)) (hr : rest ≠ []) :
    ∃ used, bs = used ++ rest ∧ Recognised t (i.run t) used v :=
  Prog.followed (tame_impl t i) h hr

theorem C102_followed_body (t : Target) (mode : BuildMode) (size : Nat) (hd : Header)
    (bs rest : List UInt8) (b : Body) (h : Prog.run t (Body.de t mode size hd) bs = .ok (b, rest))
    (hr : rest ≠ []) : ∃ used, bs = used ++ rest ∧ Recognised t (Body.de t mode size hd) used b :=
  Prog.followed (Body.tame_de t mode size hd) h hr

theorem C102_followed_derived (t : Target) (mode : BuildMode) (env : Derive.Env) (T : RTy)
    (bs rest : List UInt8) (v : Derive.Carrier T)
    (h : Prog.run t (Derive.deTy t mode env T) bs = .ok (v, rest)) (hr : rest ≠ []) :
    ∃ used, bs = used ++ rest ∧ Recognised t (Derive.deTy t mode env T) used v :=
  Prog.followed (Derive.tame_deTy t mode env T) h hr

/-- A longer form of the number 5 (property C03), which is not what is written,
followed by another byte. -/
example : ∃ used, ([133, 0, 9] : List UInt8) = used ++ [9] ∧
    Recognised ⟨.w32, 4096⟩ (de ⟨.w32, 4096⟩ .u16) used (.u16 5) :=
  C102_followed _ _ _ _ _ rfl (by simp)

/-- Without data left over it is not so on a 32-bit target: a string of an announced
length of 2^32 + 128 (property C59) is read as one of 128 bytes at the end of the data
and refused anywhere else. -/
theorem C102_not_at_end (t : Target) (ht : t.ptr = .w32) : ∃ bs s,
    Prog.run t (de t .string) bs = .ok (.str s, []) ∧
      ¬ Recognised t (de t .string) bs (.str s) := by
  obtain ⟨s, h1, h2⟩ := C59_string_32bit t ht
  refine ⟨_, s, h1, fun h => ?_⟩
  have hc : Script.Clean [.data (varint 64 (2 ^ 32 + 128) ++ List.replicate 128 97 ++ [97])] := by
    intro ev hev
    refine .inr ⟨_, ?_, List.mem_singleton.mp hev⟩
    simp
  have hb : Script.bytes [.data (varint 64 (2 ^ 32 + 128) ++ List.replicate 128 97 ++ [97])] =
      varint 64 (2 ^ 32 + 128) ++ List.replicate 128 97 ++ [97] := by
    rw [Script.bytes, if_neg (by simp), Script.bytes, List.append_nil]
  obtain ⟨s', e1, -⟩ := h.whole (fun _ => 0) _ [97] hb
  have hx := Prog.runScriptAt_clean_any t (fun _ => 0) (de t .string) hc
  rw [e1, hb] at hx
  rw [Prog.execAt_fst, ← hx] at h2
  simp [withLeft] at h2

/-- On every target, data that arrive from a reader that ends for good are read as
the same data in one piece, in whatever chunks and with whatever interruptions they
arrive, by every decoder. -/
theorem C102_chunks (t : Target) {ε α : Type} (p : Prog ε α) (size : Nat → Nat) (s : Script)
    (hs : s.Clean) :
    (Prog.runScript t size p s).map (fun (v, s') => (v, s'.bytes)) = Prog.run t p s.bytes := by
  have h := Prog.runScriptAt_clean_any t size p hs
  rw [Prog.runScriptAt_fst, Prog.execAt_fst, ← h]
  cases Prog.runScriptAt t size p s with
  | mk o s' => cases o <;> rfl

example : Script.Clean [.data [2, 1], .interrupted, .data [5]] := by
  intro ev hev
  simp only [List.mem_cons, List.not_mem_nil, or_false] at hev
  rcases hev with rfl | rfl | rfl <;> simp

end Dlhn.Props
