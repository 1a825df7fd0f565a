import Verif.Spec.Frames
import Verif.Props.Log
import Verif.Props.Evolve
import Verif.Props.Seek
import Verif.Props.TypedAny
import Verif.Props.Header
import Verif.Props.Body
import Verif.Props.DeriveDe
/-!
# C140: values inside byte buffers

Each value is serialized to a `Vec<u8>`, which is then serialized as bytes
(`serde_bytes::ByteBuf`), one after the other; the reader reads the buffers and decodes each
from its slice. `framed bs` are the bytes of the buffer `bs` in the stream.
-/
namespace Dlhn.Props

open Spec hiding variantFields
open De

/-! ## C140 -/

theorem framed_eq (bs : List UInt8) (h : bs.length < 2 ^ 64) :
    framed bs = varint 64 bs.length ++ bs := by
  rw [framed, Ser.toVec, Ser.exec_ser _ (by simp [Serializable]) (by simpa [Fits] using h)]
  simp [wire, block]

theorem frames_has (t : Target) {bss : List (List UInt8)}
    (hb : ∀ bs ∈ bss, bs.length < 2 ^ t.ptr.bits) :
    ∀ v ∈ bss.map Val.bytes, Has t .byteBuf v := by
  intro v hv
  obtain ⟨bs, h, rfl⟩ := List.mem_map.mp hv
  simpa [Has] using hb bs h

theorem frames_bytes (bss : List (List UInt8)) :
    ((bss.map Val.bytes).map fun v => (Ser.toVec v).1) = bss.map framed := by
  simp [framed]

variable {σ : Type} {step : RStep σ}

/-- Whatever is in the buffers: a reader that delivers them, or a beginning of that, in whatever
way it likes, is read as exactly the buffers of which all bytes were delivered. -/
theorem C140_buffers (hl : step.Lawful) (t : Target) (hm : 4096 ≤ t.memLimit)
    (bss : List (List UInt8)) (hb : ∀ bs ∈ bss, bs.length < 2 ^ t.ptr.bits) {s s' : σ}
    {cs : List ReadRes} {vs : List Val} {e : DeErr}
    (h : ReadsOut step t (de t .byteBuf) s cs vs e s')
    (hc : handed cs <+: (bss.map framed).flatten) :
    e = .read ∧ ∃ got left, vs = got.map Val.bytes ∧
      CompleteIn framed bss (handed cs) got left := by
  obtain ⟨h1, -, left, h2, h3, h4⟩ := C130_reader hl t hm .byteBuf (by simp [Supported])
    (by simp [minSize]) ⟨.bytes [], by simp [Has]; exact Nat.two_pow_pos _⟩ (bss.map Val.bytes)
    (frames_has t hb) h (by rw [frames_bytes]; exact hc)
  obtain ⟨got, rest, rfl, e1, e2⟩ : ∃ got rest, bss = got ++ rest ∧ got.map Val.bytes = vs ∧
      True := by
    obtain ⟨more, hmore⟩ := h2
    obtain ⟨g, r, h5, h6, -⟩ := List.map_eq_append_iff.mp hmore.symm
    exact ⟨g, r, h5, h6, trivial⟩
  subst e1
  refine ⟨h1, got, left, rfl, ⟨rest, rfl⟩, by rw [h3, frames_bytes], ?_⟩
  intro v hv
  have := h4 (.bytes v) (by
    obtain ⟨r, hr⟩ := hv
    exact ⟨r.map Val.bytes, by rw [← hr]; simp⟩)
  exact this

/-- Damage within a buffer is contained: all other buffers are read as they were. -/
theorem C140_damage (t : Target) (hm : 4096 ≤ t.memLimit) (before after : List (List UInt8))
    (bs bad : List UInt8) (hb : ∀ x ∈ before ++ bs :: after, x.length < 2 ^ t.ptr.bits)
    (hlen : bad.length = bs.length) {cs : List ReadRes} {vs : List Val} {e : DeErr} {s' : List UInt8}
    (h : ReadsOut fileStep t (de t .byteBuf)
      (overwritten ((before ++ bs :: after).map framed).flatten
        ((before.map framed).flatten.length + ((framed bs).length - bs.length)) bad) cs vs e s') :
    vs = (before ++ bad :: after).map Val.bytes ∧ e = .read ∧ s' = [] := by
  have hbits : ∀ x : List UInt8, x.length < 2 ^ t.ptr.bits → x.length < 2 ^ 64 := by
    intro x hx
    exact Nat.lt_of_lt_of_le hx (Nat.pow_le_pow_right (by omega) (by cases t.ptr <;> simp [PtrWidth.bits]))
  have h1 := framed_eq bs (hbits _ (hb bs (by simp)))
  have h2 := framed_eq bad (hbits _ (by rw [hlen]; exact hb bs (by simp)))
  have hbad : ∀ x ∈ before ++ bad :: after, x.length < 2 ^ t.ptr.bits := by
    intro x hx
    rcases List.mem_append.mp hx with hx | hx
    · exact hb x (by simp [hx])
    · rcases List.mem_cons.mp hx with rfl | hx
      · rw [hlen]; exact hb bs (by simp)
      · exact hb x (by simp [hx])
  have hfile : overwritten ((before ++ bs :: after).map framed).flatten
      ((before.map framed).flatten.length + ((framed bs).length - bs.length)) bad =
      ((before ++ bad :: after).map framed).flatten := by
    rw [h1]
    simp only [List.map_append, List.map_cons, List.flatten_append, List.flatten_cons, h1, h2,
      overwritten, List.length_append, hlen]
    have e1 : ((before.map framed).flatten ++ (varint 64 bs.length ++ bs ++
        (after.map framed).flatten)) = ((before.map framed).flatten ++ varint 64 bs.length) ++
        (bs ++ (after.map framed).flatten) := by simp
    rw [e1, List.take_left' (by simp), ← List.drop_drop, List.drop_left' (by simp),
      List.drop_left' rfl]
    simp
  rw [hfile, ← frames_bytes] at h
  exact C130_all t hm .byteBuf (by simp [Supported]) (by simp [minSize])
    ⟨.bytes [], by simp [Has]; exact Nat.two_pow_pos _⟩ _ (frames_has t hbad) h

/-- The value in a buffer, and whatever follows it there, which is not looked at. -/
theorem C140_value (t : Target) (hm : 4096 ≤ t.memLimit) (ty : Ty) (hs : Supported ty) (v : Val)
    (hv : Has t ty v) (more : List UInt8) :
    Prog.run t (de t ty) ((Ser.toVec v).1 ++ more) = .ok (v, more) := by
  obtain ⟨h1, h2⟩ := has_ok t ty hs v hv
  rw [Ser.toVec, Ser.exec_ser v h1 h2]
  exact de_wire t hm ty hs v hv .eof more

/-- Whatever the values are and however they are coded: if decoding the code of a value gives
`back v`, perhaps without looking at all of it, the file gives that for all values. -/
theorem C140_any {α β : Type} (t : Target) (hm : 4096 ≤ t.memLimit) (p : Prog DeErr α)
    (code : β → List UInt8) (back : β → α) (sent : List β)
    (hb : ∀ v ∈ sent, (code v).length < 2 ^ t.ptr.bits)
    (hp : ∀ v ∈ sent, ∃ rest, Prog.run t p (code v) = .ok (back v, rest))
    {cs : List ReadRes} {vs : List Val} {e : DeErr} {s' : List UInt8}
    (h : ReadsOut fileStep t (de t .byteBuf) (sent.map fun v => framed (code v)).flatten cs vs e s') :
    e = .read ∧ s' = [] ∧ ∃ bss : List (List UInt8), vs = bss.map Val.bytes ∧
      (bss.map fun bs => (Prog.run t p bs).map fun x => x.1) =
        sent.map fun v => Outcome.ok (back v) := by
  have hall := C130_all t hm .byteBuf (by simp [Supported]) (by simp [minSize])
    ⟨.bytes [], by simp [Has]; exact Nat.two_pow_pos _⟩ ((sent.map code).map Val.bytes)
    (frames_has t (by
      intro bs hbs
      obtain ⟨x, hx, rfl⟩ := List.mem_map.mp hbs
      exact hb x hx))
    (by rw [frames_bytes, List.map_map]; exact h)
  obtain ⟨h1, h2, h3⟩ := hall
  refine ⟨h2, h3, _, h1, ?_⟩
  rw [List.map_map]
  refine List.map_congr_left fun x hx => ?_
  obtain ⟨rest, hr⟩ := hp x hx
  rw [Function.comp, hr]
  rfl

/-- Dynamic values, each behind its header: every buffer can be read on its own, also when they
have different headers. -/
theorem C140_messages (t : Target) (hm : 4096 ≤ t.memLimit) (mode : BuildMode) (size hsize d : Nat)
    (hmem : 65535 * hsize ≤ t.memLimit) (hptr : 65535 * hsize ≤ t.isizeMax)
    (sent : List (Header × Body))
    (hv : ∀ x ∈ sent, Countable x.1 ∧ depth x.1 ≤ d ∧ Body.validate x.1 x.2 = true ∧
      Spec.Exists t x.2 ∧ CleanDecimals x.2 ∧ DatesFit mode x.2 ∧ VectorsFit t size x.2 ∧
      (x.1.toVec.1 ++ (Body.toVec mode x.2).1).length < 2 ^ t.ptr.bits)
    {cs : List ReadRes} {vs : List Val} {e : DeErr} {s' : List UInt8}
    (h : ReadsOut fileStep t (de t .byteBuf)
      (sent.map fun x => framed (x.1.toVec.1 ++ (Body.toVec mode x.2).1)).flatten cs vs e s') :
    e = .read ∧ s' = [] ∧ ∃ bss : List (List UInt8), vs = bss.map Val.bytes ∧
      Pointwise (fun bs x => ∃ rest, Prog.run t (Header.deserialize hsize d) bs = .ok (x.1, rest) ∧
        Prog.run t (Body.de t mode size x.1) rest = .ok (x.2, [])) bss sent := by
  have hall := C130_all t hm .byteBuf (by simp [Supported]) (by simp [minSize])
    ⟨.bytes [], by simp [Has]; exact Nat.two_pow_pos _⟩
    ((sent.map fun x => x.1.toVec.1 ++ (Body.toVec mode x.2).1).map Val.bytes)
    (frames_has t (by
      intro bs hbs
      obtain ⟨x, hx, rfl⟩ := List.mem_map.mp hbs
      exact (hv x hx).2.2.2.2.2.2.2))
    (by rw [frames_bytes, List.map_map]; exact h)
  obtain ⟨h1, h2, h3⟩ := hall
  refine ⟨h2, h3, _, h1, ?_⟩
  clear h h1
  induction sent with
  | nil => trivial
  | cons x sent ih =>
    refine ⟨?_, ih fun y hy => hv y (List.mem_cons_of_mem _ hy)⟩
    obtain ⟨a1, a2, a3, a4, a5, a6, a7, -⟩ := hv x (by simp)
    obtain ⟨henc, g1, g2⟩ := C30_roundtrip t hsize d hmem hptr x.1 a1 a2
    obtain ⟨enc, f1, f2⟩ := C35_roundtrip t hm mode size x.1 x.2 a3 a4 a5 a6 a7
    have f2 := f2 []
    rw [List.append_nil] at f2
    exact ⟨enc, by dsimp only; rw [g1, f1]; exact g2 enc, f2⟩

/-- Values of types that derive their implementations. -/
theorem C140_derived (t : Target) (hm : 4096 ≤ t.memLimit) (mode : BuildMode) (env : Derive.Env)
    (ho : FairOrder env) (T : RTy) (hr : Readable T) (hsy : Symmetric T) (hd : Defaulted env T)
    (sent : List (Derive.Carrier T))
    (hv : ∀ v ∈ sent, Real t T v ∧ DatesRebase mode T v ∧ InstantsInRange T v ∧
      (Derive.ser mode T v).exec.1.length < 2 ^ t.ptr.bits)
    {cs : List ReadRes} {vs : List Val} {e : DeErr} {s' : List UInt8}
    (h : ReadsOut fileStep t (de t .byteBuf)
      (sent.map fun v => framed (Derive.ser mode T v).exec.1).flatten cs vs e s') :
    e = .read ∧ s' = [] ∧ ∃ bss : List (List UInt8), vs = bss.map Val.bytes ∧
      Pointwise (fun bs v => ∃ w, Prog.run t (Derive.deTy t mode env T) bs = .ok (w, []) ∧
        Returned env T v w) bss sent := by
  have hall := C130_all t hm .byteBuf (by simp [Supported]) (by simp [minSize])
    ⟨.bytes [], by simp [Has]; exact Nat.two_pow_pos _⟩
    ((sent.map fun v => (Derive.ser mode T v).exec.1).map Val.bytes)
    (frames_has t (by
      intro bs hbs
      obtain ⟨x, hx, rfl⟩ := List.mem_map.mp hbs
      exact (hv x hx).2.2.2))
    (by rw [frames_bytes, List.map_map]; exact h)
  obtain ⟨h1, h2, h3⟩ := hall
  refine ⟨h2, h3, _, h1, ?_⟩
  clear h h1
  induction sent with
  | nil => trivial
  | cons x sent ih =>
    refine ⟨?_, ih fun y hy => hv y (List.mem_cons_of_mem _ hy)⟩
    obtain ⟨a1, a2, a3, -⟩ := hv x (by simp)
    obtain ⟨w, bs, f1, f2, f3⟩ := C71_roundtrip t hm mode env ho T hr hsy hd x a1 a2 a3
    have f3 := f3 .eof []
    rw [List.append_nil] at f3
    exact ⟨w, by dsimp only; rw [f1]; exact f3, f2⟩

/-- Old programs read new data: if fields were appended to the struct, a program that does not
know them reads all buffers, and from each the fields that it knows. -/
theorem C140_old_program (t : Target) (hm : 4096 ≤ t.memLimit) (name : String)
    (fts add : List (String × Ty)) (hf : FieldsSupported (fts ++ add))
    (sent : List (List (String × Val) × List (String × Val)))
    (hv : ∀ x ∈ sent, Has t (.struct name fts) (.struct name x.1) ∧
      Has t (.struct name add) (.struct name x.2))
    (hb : ∀ x ∈ sent, (Ser.toVec (.struct name (x.1 ++ x.2))).1.length < 2 ^ t.ptr.bits)
    {cs : List ReadRes} {vs : List Val} {e : DeErr} {s' : List UInt8}
    (h : ReadsOut fileStep t (de t .byteBuf)
      (sent.map fun x => framed (Ser.toVec (.struct name (x.1 ++ x.2))).1).flatten cs vs e s') :
    e = .read ∧ s' = [] ∧ ∃ bss : List (List UInt8), vs = bss.map Val.bytes ∧
      (bss.map fun bs => (Prog.run t (de t (.struct name fts)) bs).map fun x => x.1) =
        sent.map fun x => Outcome.ok (.struct name x.1) := by
  have hall := C130_all t hm .byteBuf (by simp [Supported]) (by simp [minSize])
    ⟨.bytes [], by simp [Has]; exact Nat.two_pow_pos _⟩
    ((sent.map fun x => (Ser.toVec (.struct name (x.1 ++ x.2))).1).map Val.bytes)
    (frames_has t (by
      intro bs hbs
      obtain ⟨x, hx, rfl⟩ := List.mem_map.mp hbs
      exact hb x hx))
    (by rw [frames_bytes, List.map_map]; exact h)
  obtain ⟨h1, h2, h3⟩ := hall
  refine ⟨h2, h3, _, h1, ?_⟩
  rw [List.map_map]
  refine List.map_congr_left fun x hx => ?_
  have := C91_ignored t hm name fts add hf x.1 x.2 (hv x hx).1 (hv x hx).2 []
  rw [List.append_nil] at this
  rw [Function.comp, this]
  rfl

/-- New programs notice old data: if the appended fields take any bytes, decoding an old buffer
with the new type is an error; it takes nothing from the buffers that follow. -/
theorem C140_new_program (t : Target) (hm : 4096 ≤ t.memLimit) (name : String)
    (fts add : List (String × Ty)) (hf : FieldsSupported fts) (ha : FieldsSupported add)
    (h0 : 0 < minSize (.struct name add)) (fs : List (String × Val))
    (hv : Has t (.struct name fts) (.struct name fs)) :
    ∃ e, Prog.run t (de t (.struct name (fts ++ add))) (Ser.toVec (.struct name fs)).1 = .err e := by
  have h := C91_missing t hm name fts add hf fs hv []
  obtain ⟨e, he⟩ := C103_short t hm (.struct name add) (by simpa [Supported] using ha) .eof []
    (by simpa using h0)
  have he : Prog.run t (de t (.struct name add)) [] = .err e := he
  rw [he, List.append_nil] at h
  exact ⟨e, h⟩

/-- A buffer with a variant that the program does not know is an error, and the next buffer can
be read. -/
theorem C140_unknown (t : Target) (hm : 4096 ≤ t.memLimit) (name : String)
    (vs : List (String × VTy)) (v : Val) (i : UInt32) (hi : indexOf v = some i)
    (h1 : vs.length ≤ i.toNat) (h2 : i.toNat < 16384) (hs : Serializable v) (hf : Fits v)
    (hb : (Ser.toVec v).1.length < 2 ^ t.ptr.bits) (rest : List UInt8) :
    Prog.run t (de t .byteBuf) (framed (Ser.toVec v).1 ++ rest) = .ok (.bytes (Ser.toVec v).1, rest) ∧
      ∃ e, Prog.run t (de t (.enum name vs)) (Ser.toVec v).1 = .err e := by
  refine ⟨C140_value t hm .byteBuf (by simp [Supported]) (.bytes (Ser.toVec v).1)
    (by simpa [Has] using hb) rest, ?_⟩
  have h := C91_unknown t name vs v i hi h1 h2 hs hf []
  rw [List.append_nil] at h
  exact ⟨_, h⟩

/-- What the buffer costs: one byte up to 127 bytes, two up to 16383, at most nine. -/
theorem C140_cost (bs : List UInt8) (h : bs.length < 2 ^ 64) :
    (framed bs).length ≤ bs.length + 9 ∧
    (bs.length < 128 → (framed bs).length = bs.length + 1) ∧
    (bs.length < 16384 → (framed bs).length ≤ bs.length + 2) := by
  rw [framed_eq bs h, List.length_append, length_varint]
  have h9 : varintLen 64 bs.length ≤ 9 := Nat.min_le_right _ _
  have hp := varintLen_pos 64 bs.length
  refine ⟨by omega, fun h1 => ?_, fun h1 => ?_⟩
  · have := varintLen_mono 64 (Nat.le_of_lt_succ h1)
    have : varintLen 64 127 = 1 := by rw [varintLen, groups]; simp
    omega
  · have := varintLen_mono 64 (Nat.le_of_lt_succ h1)
    have : varintLen 64 16383 = 2 := by rw [varintLen, groups, groups]; simp
    omega

/-- Damage to the length of a buffer is not contained. Of the buffers `[5]`, `[6]` and `[7]`, with
the first length changed to 2, remain `[5, 1]` and then one with the length 6, which is not there. -/
theorem C140_length (t : Target) (hm : 4096 ≤ t.memLimit) :
    overwritten ([[5], [6], [7]].map framed).flatten 0 [2] = [2, 5, 1, 6, 1, 7] ∧
    Prog.run t (de t .byteBuf) [2, 5, 1, 6, 1, 7] = .ok (.bytes [5, 1], [6, 1, 7]) ∧
    ∃ e, Prog.run t (de t .byteBuf) [6, 1, 7] = .err e := by
  have hf : framed [5, 1] = [2, 5, 1] := by decide +kernel
  have hb : 2 < 2 ^ t.ptr.bits := by cases t.ptr <;> simp [PtrWidth.bits]
  refine ⟨by decide +kernel, ?_, ?_⟩
  · have := C140_value t hm .byteBuf (by simp [Supported]) (.bytes [5, 1])
      (by simpa [Has] using hb) [6, 1, 7]
    rw [← framed, hf] at this
    exact this
  · have hx : framed [1, 7, 0, 0, 0, 0] = [6, 1, 7, 0, 0, 0, 0] := by decide +kernel
    have h6 : 6 < 2 ^ t.ptr.bits := by cases t.ptr <;> simp [PtrWidth.bits]
    have := C140_value t hm .byteBuf (by simp [Supported]) (.bytes [1, 7, 0, 0, 0, 0])
      (by simpa [Has] using h6) []
    rw [← framed, hx] at this
    exact ⟨.read, C10_truncation_any t .byteBuf (by simp [NoText]) _ _ this [6, 1, 7]
      ⟨[0, 0, 0, 0], rfl⟩ (by simp)⟩

/-! Examples: a struct to which a field was appended, and a file of two of its values. -/

example : FieldsSupported ([("id", Ty.u32)] ++ [("note", .option .string)]) ∧
    0 < minSize (.struct "Event" [("note", .option .string)]) := by
  simp [FieldsSupported, Supported, minSize, minSizeFields]

example (t : Target) : Has t (.struct "Event" [("id", .u32)]) (.struct "Event" [("id", .u32 300)]) ∧
    Has t (.struct "Event" [("note", .option .string)])
      (.struct "Event" [("note", .some (.str "hi"))]) := by
  have hu : (utf8 "hi").length = 2 := by decide +kernel
  cases h : t.ptr <;> simp [Has, HasFields, h, hu, PtrWidth.bits]

example : (Ser.toVec (.struct "Event" ([("id", .u32 300)] ++ [("note", .some (.str "hi"))]))).1 =
    [172, 4, 1, 2, 104, 105] := by decide +kernel

-- every file can be read to its end
example (t : Target) (hm : 4096 ≤ t.memLimit) (file : List UInt8) :
    ∃ cs vs e s', ReadsOut fileStep t (de t .byteBuf) file cs vs e s' :=
  C130_ends fileStep_lawful fileStep_live fileStep_holds t hm .byteBuf (.inr (by simp [NoText]))
    (by simp [Supported]) (by simp [minSize]) file

-- a dynamic value with its header, and a value of a type with derived implementations
example (t : Target) (mode : BuildMode) : Countable sampleShape ∧ depth sampleShape ≤ 200 ∧
    (sampleShape.toVec.1 ++ (Body.toVec mode sampleBody).1).length < 2 ^ t.ptr.bits := by
  refine ⟨by simp [sampleShape, Countable, AllCountable], by decide, ?_⟩
  have h : (sampleShape.toVec.1 ++ (Body.toVec mode sampleBody).1).length < 2 ^ 16 := by
    cases mode <;> decide +kernel
  exact Nat.lt_trans h (by cases t.ptr <;> decide)

example (t : Target) (mode : BuildMode) :
    (Derive.ser mode recordTy recordVal).exec.1.length < 2 ^ t.ptr.bits := by
  have h : (Derive.ser mode recordTy recordVal).exec.1.length < 2 ^ 16 := by
    cases mode <;> decide +kernel
  exact Nat.lt_trans h (by cases t.ptr <;> decide)

end Dlhn.Props
