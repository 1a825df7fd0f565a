import Verif.Proof.Stack
import Verif.Proof.BodyDe
import Verif.Props.Body
import Verif.Props.Header
/-!
# C128: the stack that dynamic values need

`Body.deOn t mode size d h` is `Body::deserialize` with a header `h` on a stack with room for `d`
nested calls; `Body.serOn`, `Body.validateOn` and `Header.serializeOn` are serializing a body,
validating it and serializing a header on such a stack. `Spec.depth` and `Spec.bodyDepth` are how
deeply a header and a body are nested.
-/
namespace Dlhn.Props

open Spec

/-- A stack with as much room as the header is deep is enough, whatever the data are: everything
is as if the stack had no end, and nothing exhausts it. -/
theorem C128_enough (t : Target) (hm : 4096 ≤ t.memLimit) (mode : BuildMode) (size d : Nat)
    (h : Header) (hd : depth h ≤ d) (fin : Ending) (bs : List UInt8) :
    Prog.exec t fin (Body.deOn t mode size d h) bs = Prog.exec t fin (Body.de t mode size h) bs ∧
    Prog.exec t fin (Body.deOn t mode size d h) bs ≠ .panic .stackOverflow := by
  rw [Body.deOn_eq d h hd]
  exact ⟨rfl, Body.spared_body hm mode size h fin bs⟩

example : depth sampleShape ≤ 4 ∧ ¬ depth sampleShape ≤ 3 := by
  simp [sampleShape, depth, depthAll]

/-- On any stack, reading ends as if the stack had no end or exhausts it; a body that is read is
no deeper than the stack, and no deeper than the header. -/
theorem C128_any (t : Target) (mode : BuildMode) (size d : Nat) (h : Header) (fin : Ending)
    (bs : List UInt8) :
    (Prog.exec t fin (Body.deOn t mode size d h) bs = Prog.exec t fin (Body.de t mode size h) bs ∨
      Prog.exec t fin (Body.deOn t mode size d h) bs = .panic .stackOverflow) ∧
    (∀ b rest, Prog.exec t fin (Body.deOn t mode size d h) bs = .ok (b, rest) → bodyDepth b ≤ d) ∧
    ∀ b rest, Prog.exec t fin (Body.de t mode size h) bs = .ok (b, rest) →
      bodyDepth b ≤ depth h :=
  ⟨Body.below_de t mode size d h fin bs,
    fun b rest hx => Body.returns_depth t mode size d h fin bs b rest hx,
    fun b rest hx => Body.conforms_depth (Body.returns_conforms t mode size h fin bs b rest hx)⟩

/-- The encoding of a body is read on exactly the stacks that are as deep as the body; all others
it exhausts. -/
theorem C128_exact (t : Target) (hm : 4096 ≤ t.memLimit) (mode : BuildMode) (size d : Nat)
    (h : Header) (b : Body) (hv : Body.validate h b = true) (he : Exists t b)
    (hc : CleanDecimals b) (hf : DatesFit mode b) (ha : VectorsFit t size b) :
    ∃ enc, Body.toVec mode b = (enc, .ok ()) ∧ ∀ rest,
      (bodyDepth b ≤ d →
        Prog.run t (Body.deOn t mode size d h) (enc ++ rest) = .ok (b, rest)) ∧
      (d < bodyDepth b →
        Prog.run t (Body.deOn t mode size d h) (enc ++ rest) = .panic .stackOverflow) := by
  refine ⟨bodyWire b, C35_encoding t mode b he hf, fun rest => ⟨fun hd => ?_, fun hd => ?_⟩⟩
  · have hp := Body.conforms_prune d ((Body.validate_iff h b).mp hv) hd
    exact (Body.same_prune t mode size d h .eof _ b rest).mpr
      (Body.de_wire t mode size hm _ b hp ⟨he, hc, hf, ha⟩ .eof rest)
  · have hr := Body.de_wire t mode size hm h b ((Body.validate_iff h b).mp hv) ⟨he, hc, hf, ha⟩
      .eof rest
    rcases Body.below_de t mode size d h .eof (bodyWire b ++ rest) with hx | hx
    · rw [hr] at hx
      have := Body.returns_depth t mode size d h .eof _ b rest hx
      omega
    · exact hx

example : bodyDepth sampleBody = 4 := by
  simp [sampleBody, bodyDepth, bodyDepthAll, bodyDepthEntries]

/-- Five bytes after a header of depth 4: one level of nesting for each byte `1`. -/
example : (Prog.run ⟨.w64, 4096⟩ (Body.deOn ⟨.w64, 4096⟩ .debug 56 4
      (.optional (.optional (.optional .uint8)))) [1, 1, 1, 7, 9]
        = .ok (.some (.some (.some (.uint8 7))), [9])) ∧
    (Prog.run ⟨.w64, 4096⟩ (Body.deOn ⟨.w64, 4096⟩ .debug 56 3
      (.optional (.optional (.optional .uint8)))) [1, 1, 1, 7, 9] = .panic .stackOverflow) ∧
    Prog.run ⟨.w64, 4096⟩ (Body.deOn ⟨.w64, 4096⟩ .debug 56 3
      (.optional (.optional (.optional .uint8)))) [1, 1, 0, 7, 9]
        = .ok (.some (.some .none), [7, 9]) :=
  ⟨rfl, rfl, rfl⟩

/-- Serializing a body needs as much stack as the body is deep: with that everything is as if the
stack had no end; with less, a body that could be serialized exhausts it, after a prefix of its
encoding. -/
theorem C128_serialize (mode : BuildMode) (d : Nat) (b : Body) :
    (bodyDepth b ≤ d → (Body.serOn mode d b).exec = Body.toVec mode b) ∧
    (d < bodyDepth b → (Body.toVec mode b).2 = .ok () →
      (Body.serOn mode d b).exec.2 = .panic .stackOverflow ∧
      (Body.serOn mode d b).exec.1 <+: (Body.toVec mode b).1) := by
  refine ⟨fun hd => by rw [Body.serOn_eq d b hd]; rfl, fun hd hok => ?_⟩
  rcases Body.wbelow_ser mode d b with h | h
  · have := Body.ser_deep mode d b (by rw [h]; exact hok)
    omega
  · exact h

example : (Body.serOn .debug 3 sampleBody).exec.2 = .panic .stackOverflow ∧
    (Body.serOn .debug 4 sampleBody).exec = Body.toVec .debug sampleBody :=
  ⟨((C128_serialize .debug 3 sampleBody).2
      (by simp [sampleBody, bodyDepth, bodyDepthAll, bodyDepthEntries]) rfl).1,
    (C128_serialize .debug 4 sampleBody).1
      (by simp [sampleBody, bodyDepth, bodyDepthAll, bodyDepthEntries])⟩

/-- Validating never needs more stack than the header is deep, nor more than the body is deep; on
any stack it gives the same verdict or exhausts it; and a valid body needs a stack as deep as it
is. -/
theorem C128_validate (d : Nat) (h : Header) (b : Body) :
    (depth h ≤ d ∨ bodyDepth b ≤ d → Body.validateOn d h b = some (Body.validate h b)) ∧
    (Body.validateOn d h b = none ∨ Body.validateOn d h b = some (Body.validate h b)) ∧
    (Body.validate h b = true → d < bodyDepth b → Body.validateOn d h b = none) := by
  refine ⟨Body.validateOn_eq d h b, Body.validateOn_agree d h b, fun hv hd => ?_⟩
  rcases Body.validateOn_agree d h b with hx | hx
  · exact hx
  · have := Body.valid_deep d h b (by rw [hx, hv])
    omega

/-- A mismatch found early needs little stack, however deep the header and the body are. -/
example : Body.validateOn 2 (.tuple [.unit, sampleShape]) (.tuple [.boolean true, sampleBody])
      = some false ∧
    Body.validateOn 2 (.tuple [.unit, sampleShape]) (.tuple [.unit, sampleBody]) = none := by
  simp [sampleShape, sampleBody, Body.validateOn, Body.allOn, Body.validate]

/-- Serializing a header needs exactly as much stack as it is deep. -/
theorem C128_header (d : Nat) (h : Header) :
    (depth h ≤ d → (Header.serializeOn d h).exec = h.toVec ∧ h.toVec.2 = .ok ()) ∧
    (d < depth h → (Header.serializeOn d h).exec.2 = .panic .stackOverflow ∧
      (Header.serializeOn d h).exec.1 <+: h.toVec.1) := by
  refine ⟨fun hd => ⟨by rw [Header.serializeOn_eq d h hd]; rfl, Rec.serialize_ok h⟩, fun hd => ?_⟩
  rcases Header.wbelow_serialize d h with hx | hx
  · have := Header.serialize_deep d h (by rw [hx]; exact Rec.serialize_ok h)
    omega
  · exact hx

example : (Header.serializeOn 2 sampleShape).exec.2 = .panic .stackOverflow :=
  ((C128_header 2 sampleShape).2 (by simp [sampleShape, depth, depthAll])).1

/-- A stack that sufficed to read a header suffices for everything else done with it: writing it
again, reading any data under it, and validating and writing again what was read. -/
theorem C128_header_first (t : Target) (hm : 4096 ≤ t.memLimit) (size : Nat)
    (hmem : 65535 * size ≤ t.memLimit) (hptr : 65535 * size ≤ t.isizeMax) (d : Nat)
    (hbs hrest : List UInt8) (h : Header)
    (hx : Prog.run t (Header.deserialize size d) hbs = .ok (h, hrest))
    (mode : BuildMode) (size' : Nat) (fin : Ending) (bs : List UInt8) :
    (Header.serializeOn d h).exec = h.toVec ∧
    Prog.exec t fin (Body.deOn t mode size' d h) bs
      = Prog.exec t fin (Body.de t mode size' h) bs ∧
    Prog.exec t fin (Body.deOn t mode size' d h) bs ≠ .panic .stackOverflow ∧
    ∀ b rest, Prog.exec t fin (Body.deOn t mode size' d h) bs = .ok (b, rest) →
      Body.validateOn d h b = some true ∧ (Body.serOn mode d b).exec = Body.toVec mode b := by
  have hd : depth h ≤ d := by
    obtain ⟨enc, rfl, g⟩ := C31_sound t size d hbs hrest h hx
    by_cases hlt : d < depth h
    · rw [(C33_exact t size hmem hptr h enc g hrest d).2 hlt] at hx
      cases hx
    · omega
  have henough := C128_enough t hm mode size' d h hd fin bs
  refine ⟨((C128_header d h).1 hd).1, henough.1, henough.2, fun b rest hb => ?_⟩
  have hdb := (C128_any t mode size' d h fin bs).2.1 b rest hb
  rw [henough.1] at hb
  exact ⟨by rw [(C128_validate d h b).1 (.inl hd), (C36_decoded_validates t mode size' h fin bs
    rest b hb).2], (C128_serialize mode d b).1 hdb⟩

example : Prog.run ⟨.w64, 65535 * 32⟩ (Header.deserialize 32 3) [1, 20, 3, 8]
    = .ok (.optional (.array .uint8), [8]) := rfl

end Dlhn.Props
