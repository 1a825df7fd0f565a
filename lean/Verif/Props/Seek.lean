import Verif.Proof.Seek
import Verif.Props.Bounds
import Verif.Props.DeriveRead
/-!
# C137: random access to records of fixed size

A file holds something (such as a header, or nothing) and then the values of a type one after
the other. `FixedSize t ty n` and `FixedBody t h n` (Spec/Seek.lean) say that the limits of C103
coincide; `overwritten file offset bs` is the file after writing `bs` at an offset.
-/
namespace Dlhn.Props

open Spec hiding variantFields
open De

/-! ## C137 -/

/-- All values of a type (of which one fits into the address space) take the same number of
bytes exactly if the limits computed from the type coincide. -/
theorem C137_iff (t : Target) (ty : Ty) (hs : Supported ty) (hp : Populated ty)
    (hsm : minSize ty + 1 < 2 ^ t.ptr.bits) :
    (∃ n, FixedSize t ty n) ↔
      ∀ v w, Has t ty v → Has t ty w → (Ser.toVec v).1.length = (Ser.toVec w).1.length := by
  obtain ⟨⟨v0, hv0, hl0⟩, hmax, hinf⟩ := C103_reached t ty hs hp
  constructor
  · rintro ⟨n, h1, h2⟩ v w hv hw
    obtain ⟨e, he, a1, a2⟩ := C103_typed t ty hs v hv
    obtain ⟨f, hf, b1, b2⟩ := C103_typed t ty hs w hw
    have a3 := a2 n h2
    have b3 := b2 n h2
    rw [he, hf]
    dsimp only
    omega
  · intro h
    refine ⟨minSize ty, rfl, ?_⟩
    cases hm : maxSize t ty with
    | none =>
      obtain ⟨v, hv, hl⟩ := hinf hm _ hsm
      have := h v v0 hv hv0
      omega
    | some m =>
      obtain ⟨v, hv, hl⟩ := hmax m hm
      rw [← hl, ← hl0, h v v0 hv hv0]

/-- A value of a type of fixed size takes that many bytes. -/
theorem fixed_length {t : Target} {ty : Ty} {n : Nat} (hs : Supported ty) (hn : FixedSize t ty n)
    {v : Val} (hv : Has t ty v) : (Ser.toVec v).1.length = n := by
  obtain ⟨e, he, a1, a2⟩ := C103_typed t ty hs v hv
  have := a2 n hn.2
  have := hn.1
  rw [he]
  dsimp only
  omega

theorem fixed_lengths {t : Target} {ty : Ty} {n : Nat} (hs : Supported ty) (hn : FixedSize t ty n)
    {vs : List Val} (hv : ∀ v ∈ vs, Has t ty v) :
    ∀ x ∈ vs.map fun v => (Ser.toVec v).1, x.length = n := by
  intro x hx
  obtain ⟨v, hvm, rfl⟩ := List.mem_map.mp hx
  exact fixed_length hs hn (hv v hvm)

/-- The number of values in the file follows from its length, even if the end of it is torn. -/
theorem C137_count (t : Target) (ty : Ty) (hs : Supported ty) (n : Nat) (hn : FixedSize t ty n)
    (vs : List Val) (hv : ∀ v ∈ vs, Has t ty v) (front tail : List UInt8) (htail : tail.length < n) :
    ((front ++ (vs.map fun v => (Ser.toVec v).1).flatten ++ tail).length - front.length) / n =
      vs.length := by
  have hl := length_flatten_fixed _ (fixed_lengths hs hn hv)
  rw [List.length_map] at hl
  rw [List.length_append, List.length_append, hl,
    show front.length + vs.length * n + tail.length - front.length =
      tail.length + vs.length * n by omega,
    Nat.add_mul_div_right _ _ (by omega), Nat.div_eq_of_lt htail, Nat.zero_add]

/-- Reading at the offset of value number `k` gives that value and ends at the offset of the
next. -/
theorem C137_seek (t : Target) (hm : 4096 ≤ t.memLimit) (ty : Ty) (hs : Supported ty) (n : Nat)
    (hn : FixedSize t ty n) (vs : List Val) (hv : ∀ v ∈ vs, Has t ty v) (front : List UInt8)
    (k : Nat) (v : Val) (hk : vs[k]? = some v) (fin : Ending) :
    let file := front ++ (vs.map fun v => (Ser.toVec v).1).flatten
    Prog.exec t fin (de t ty) (file.drop (front.length + k * n)) =
      .ok (v, file.drop (front.length + (k + 1) * n)) := by
  have hmem := List.mem_of_getElem? hk
  obtain ⟨h1, h2⟩ := has_ok t ty hs v (hv v hmem)
  intro file
  rw [drop_record_cons front _ (fixed_lengths hs hn hv) k (Ser.toVec v).1 (by simp [hk]),
    Ser.toVec, Ser.exec_ser v h1 h2]
  exact de_wire t hm ty hs v (hv v hmem) fin _

/-- Writing the bytes of a value at the offset of value number `k` replaces that value and
nothing else. -/
theorem C137_update (t : Target) (ty : Ty) (hs : Supported ty) (n : Nat) (hn : FixedSize t ty n)
    (vs : List Val) (hv : ∀ v ∈ vs, Has t ty v) (front : List UInt8) (k : Nat) (hk : k < vs.length)
    (w : Val) (hw : Has t ty w) :
    overwritten (front ++ (vs.map fun v => (Ser.toVec v).1).flatten) (front.length + k * n)
        (Ser.toVec w).1 =
      front ++ ((vs.set k w).map fun v => (Ser.toVec v).1).flatten := by
  have hl := fixed_length hs hn hw
  rw [overwritten_record front _ (fixed_lengths hs hn hv) k (Ser.toVec vs[k]).1 (by simp [hk])
    _ (by omega), List.drop_eq_nil_of_le (by
      have := fixed_length hs hn (hv vs[k] (List.getElem_mem hk))
      omega), List.append_nil, List.map_set]

/-- A file of pairs of a small number and a float, five bytes each. -/
example (t : Target) : FixedSize t (.tuple [.u8, .f32]) 5 ∧ Supported (.tuple [.u8, .f32]) ∧
    Populated (.tuple [.u8, .f32]) ∧ minSize (.tuple [.u8, .f32]) + 1 < 2 ^ t.ptr.bits ∧
    overwritten ([9] ++ ([.tuple [.u8 1, .f32 2], .tuple [.u8 3, .f32 4]].map
      fun v => (Ser.toVec v).1).flatten) (1 + 1 * 5) (Ser.toVec (.tuple [.u8 7, .f32 8])).1 =
      [9, 1, 2, 0, 0, 0, 7, 8, 0, 0, 0] := by
  refine ⟨by simp [FixedSize, minSize, minSizeAll, maxSize, maxSizeAll, addBound],
    by simp [Supported, AllSupported], by simp [Populated, AllPopulated], ?_, by decide +kernel⟩
  cases t.ptr <;> decide +kernel

/-- The sizes of numbers from 16 bits on, strings and optional values depend on the value. -/
example (t : Target) : (¬ ∃ n, FixedSize t .u16 n) ∧ (¬ ∃ n, FixedSize t .string n) ∧
    ¬ ∃ n, FixedSize t (.option .u8) n := by
  simp [FixedSize, minSize, maxSize, addBound]

/-- If this is interrupted, or whatever else of at most that length is written there, all other
values are still read as before. -/
theorem C137_torn (t : Target) (hm : 4096 ≤ t.memLimit) (ty : Ty) (hs : Supported ty) (n : Nat)
    (hn : FixedSize t ty n) (vs : List Val) (hv : ∀ v ∈ vs, Has t ty v) (front : List UInt8)
    (k : Nat) (hk : k < vs.length) (bs : List UInt8) (hb : bs.length ≤ n)
    (i : Nat) (hi : i ≠ k) (v : Val) (hvi : vs[i]? = some v) (fin : Ending) :
    let file := overwritten (front ++ (vs.map fun v => (Ser.toVec v).1).flatten)
      (front.length + k * n) bs
    Prog.exec t fin (de t ty) (file.drop (front.length + i * n)) =
      .ok (v, file.drop (front.length + (i + 1) * n)) := by
  have hmem := List.mem_of_getElem? hvi
  obtain ⟨h1, h2⟩ := has_ok t ty hs v (hv v hmem)
  have hlen := fixed_lengths hs hn hv
  intro file
  have hf : file = _ := overwritten_record front _ hlen k (Ser.toVec vs[k]).1 (by simp [hk]) bs hb
  have hlen' := set_lengths _ hlen k (bs ++ (Ser.toVec vs[k]).1.drop bs.length) (by
    have := fixed_length hs hn (hv vs[k] (List.getElem_mem hk))
    rw [List.length_append, List.length_drop]
    omega)
  rw [hf, drop_record_cons front _ hlen' i (Ser.toVec v).1 (by
    rw [List.getElem?_set_ne (Ne.symm hi)]; simp [hvi]), Ser.toVec, Ser.exec_ser v h1 h2]
  exact de_wire t hm ty hs v (hv v hmem) fin _

/-- What is read where writing was interrupted may be neither the old nor the new value, without
an error. -/
theorem C137_mixed (t : Target) (hm : 4096 ≤ t.memLimit) :
    ∃ v w x, Has t .f32 v ∧ Has t .f32 w ∧ FixedSize t .f32 4 ∧
    x ≠ v ∧ x ≠ w ∧ ∀ fin, Prog.exec t fin (de t .f32)
      (overwritten (Ser.toVec v).1 0 ((Ser.toVec w).1.take 2)) = .ok (x, []) := by
  refine ⟨.f32 0, .f32 0xffffffff, .f32 0x0000ffff, by simp [Has], by simp [Has],
    by simp [FixedSize, minSize, maxSize], by simp, by simp, fun fin => ?_⟩
  exact de_wire t hm .f32 (by simp [Supported]) (.f32 0x0000ffff) (by simp [Has]) fin []

/-- With values of different lengths it is not so: writing 70000 over 300 makes the next number
a different one, without an error. -/
theorem C137_shift (t : Target) (hm : 4096 ≤ t.memLimit) : ∃ v w x y, Has t .u32 v ∧
    Has t .u32 w ∧ Has t .u32 x ∧ Has t .u32 y ∧ y ≠ x ∧
    ∀ fin, Prog.exec t fin (de t (.tuple [.u32, .u32]))
      (overwritten ((Ser.toVec v).1 ++ (Ser.toVec x).1) 0 (Ser.toVec w).1) =
        .ok (.tuple [w, y], []) := by
  refine ⟨.u32 300, .u32 70000, .u32 400, .u32 6, by simp [Has], by simp [Has], by simp [Has],
    by simp [Has], by simp, fun fin => ?_⟩
  have hs : Supported (.tuple [.u32, .u32]) := by simp [Supported, AllSupported]
  have hv : Has t (.tuple [.u32, .u32]) (.tuple [.u32 70000, .u32 6]) :=
    ⟨_, rfl, _, _, rfl, ⟨_, rfl⟩, _, _, rfl, ⟨_, rfl⟩, rfl⟩
  obtain ⟨h1, h2⟩ := has_ok t _ hs _ hv
  rw [show overwritten ((Ser.toVec (.u32 300)).1 ++ (Ser.toVec (.u32 400)).1) 0
    (Ser.toVec (.u32 70000)).1 = (Ser.toVec (.tuple [.u32 70000, .u32 6])).1 ++ [] by decide +kernel,
    Ser.toVec, Ser.exec_ser _ h1 h2]
  exact de_wire t hm _ hs _ hv fin []

/-! ### Dynamic values -/

/-- All bodies of a header take the same number of bytes if the limits of the header coincide. -/
theorem body_lengths {t : Target} {mode : BuildMode} {h : Header} {n : Nat} (hn : FixedBody t h n)
    {bs : List Body} (hb : ∀ b ∈ bs, Body.validate h b = true ∧ Exists t b ∧ DatesFit mode b) :
    ∀ x ∈ bs.map fun b => (Body.toVec mode b).1, x.length = n := by
  intro x hx
  obtain ⟨b, hm, rfl⟩ := List.mem_map.mp hx
  obtain ⟨h1, h2, h3⟩ := hb b hm
  obtain ⟨e, he, a1, a2⟩ := C103_body t mode h b h1 h2 h3
  have := a2 n hn.2
  have := hn.1
  rw [he]
  dsimp only
  omega

/-- Reading a body at the offset of body number `i`, also after anything of at most the length of
a body was written at the offset of another. -/
theorem C137_body (t : Target) (hm : 4096 ≤ t.memLimit) (mode : BuildMode) (size : Nat) (h : Header)
    (n : Nat) (hn : FixedBody t h n) (bodies : List Body)
    (hb : ∀ b ∈ bodies, Body.validate h b = true ∧ Exists t b ∧ DatesFit mode b)
    (hc : ∀ b ∈ bodies, CleanDecimals b ∧ VectorsFit t size b) (front : List UInt8)
    (i : Nat) (b : Body) (hi : bodies[i]? = some b) (fin : Ending) :
    let file := front ++ (bodies.map fun b => (Body.toVec mode b).1).flatten
    Prog.exec t fin (Body.de t mode size h) (file.drop (front.length + i * n)) =
        .ok (b, file.drop (front.length + (i + 1) * n)) ∧
      ∀ k bs, k < bodies.length → k ≠ i → bs.length ≤ n →
        let torn := overwritten file (front.length + k * n) bs
        Prog.exec t fin (Body.de t mode size h) (torn.drop (front.length + i * n)) =
          .ok (b, torn.drop (front.length + (i + 1) * n)) := by
  have hmem := List.mem_of_getElem? hi
  obtain ⟨h1, h2, h3⟩ := hb b hmem
  obtain ⟨h4, h5⟩ := hc b hmem
  have hlen := body_lengths hn hb
  have hd : ∀ rest, Prog.exec t fin (Body.de t mode size h) ((Body.toVec mode b).1 ++ rest) =
      .ok (b, rest) := fun rest => by
    rw [C35_encoding t mode b h2 h3]
    exact Body.de_wire t mode size hm h b ((Body.validate_iff h b).mp h1) ⟨h2, h4, h3, h5⟩ fin rest
  intro file
  constructor
  · rw [drop_record_cons front _ hlen i (Body.toVec mode b).1 (by simp [hi]), hd]
  · intro k bs hk hki hbs torn
    have hf : torn = _ :=
      overwritten_record front _ hlen k (Body.toVec mode bodies[k]).1 (by simp [hk]) bs hbs
    have hlen' := set_lengths _ hlen k (bs ++ (Body.toVec mode bodies[k]).1.drop bs.length) (by
      have := hlen _ (List.mem_map_of_mem (f := fun b => (Body.toVec mode b).1)
        (List.getElem_mem hk))
      rw [List.length_append, List.length_drop]
      omega)
    rw [hf, drop_record_cons front _ hlen' i (Body.toVec mode b).1 (by
      rw [List.getElem?_set_ne hki]; simp [hi]), hd]

/-- Every body of the header of three fixed fields meets the hypotheses. -/
example (t : Target) (mode : BuildMode) (size : Nat) (ha : t.allocate (3 * size) = none)
    (x : UInt64) (y : Int8) (z : Bool) :
    let b : Body := .tuple [.float64 x, .int8 y, .boolean z]
    let h : Header := .tuple [.float64, .int8, .boolean]
    FixedBody t h 10 ∧ Body.validate h b = true ∧ Exists t b ∧ DatesFit mode b ∧ CleanDecimals b ∧
      VectorsFit t size b := by
  refine ⟨by simp [FixedBody, minBody, minBodies, maxBody, maxBodies, addBound], ?_, ?_, ?_, ?_, ?_⟩
  · simp [Body.validate, Body.validateZip]
  · intro c hc
    simp [parts, partsAll] at hc
    rcases hc with rfl | rfl | rfl | rfl <;> simp [LengthsFit]
  · intro _ d hd
    simp [parts, partsAll] at hd
  · intro d hd
    simp [parts, partsAll] at hd
  · intro bs hb
    simp [parts, partsAll] at hb
    subst hb
    exact ha

/-! ### Derived types -/

/-- The same for types that derive `Serialize`, `SerializeHeader` and `Deserialize`: the limits
are those of the header. -/
theorem C137_derived (t : Target) (hm : 4096 ≤ t.memLimit) (mode : BuildMode) (env : Derive.Env)
    (ho : FairOrder env) (T : RTy) (h : Header) (hT : Announces T h) (hp : Plain T)
    (hr : Readable T) (hs : Symmetric T) (hd : Defaulted env T) (hlo : Lossless T) (n : Nat)
    (hn : FixedBody t h n) (vs : List (Derive.Carrier T))
    (hv : ∀ v ∈ vs, Real t T v ∧ DatesRebase mode T v) (front : List UInt8)
    (i : Nat) (v : Derive.Carrier T) (hi : vs[i]? = some v) (fin : Ending) :
    let file := front ++ (vs.map fun v => (Derive.ser mode T v).exec.1).flatten
    Prog.exec t fin (Derive.deTy t mode env T) (file.drop (front.length + i * n)) =
        .ok (v, file.drop (front.length + (i + 1) * n)) ∧
      (∀ w, Real t T w → DatesRebase mode T w →
        overwritten file (front.length + i * n) (Derive.ser mode T w).exec.1 =
          front ++ ((vs.set i w).map fun v => (Derive.ser mode T v).exec.1).flatten) ∧
      ∀ k bs, k < vs.length → k ≠ i → bs.length ≤ n →
        let torn := overwritten file (front.length + k * n) bs
        Prog.exec t fin (Derive.deTy t mode env T) (torn.drop (front.length + i * n)) =
          .ok (v, torn.drop (front.length + (i + 1) * n)) := by
  have hlen1 : ∀ v, Real t T v → DatesRebase mode T v → (Derive.ser mode T v).exec.1.length = n := by
    intro v h1 h2
    obtain ⟨e, he, a1, a2⟩ := C103_derived t mode T h hT hp v h1 h2
    have := a2 n hn.2
    have := hn.1
    rw [he]
    dsimp only
    omega
  have hlen : ∀ x ∈ vs.map fun v => (Derive.ser mode T v).exec.1, x.length = n := by
    intro x hx
    obtain ⟨v, hvm, rfl⟩ := List.mem_map.mp hx
    exact hlen1 v (hv v hvm).1 (hv v hvm).2
  have hmem := List.mem_of_getElem? hi
  have hlt := (List.getElem?_eq_some_iff.mp hi).1
  have hx : ∀ rest, Prog.exec t fin (Derive.deTy t mode env T)
      ((Derive.ser mode T v).exec.1 ++ rest) = .ok (v, rest) := fun rest => by
    obtain ⟨bs, h1, h2⟩ := C71_exact t hm mode env ho T hr hs hd hlo v (hv v hmem).1 (hv v hmem).2
    rw [h1]
    exact h2 fin rest
  intro file
  refine ⟨?_, fun w hw hwd => ?_, ?_⟩
  · rw [drop_record_cons front _ hlen i (Derive.ser mode T v).exec.1 (by simp [hi]), hx]
  · have h1 := hlen1 w hw hwd
    have h2 := hlen1 v (hv v hmem).1 (hv v hmem).2
    rw [overwritten_record front _ hlen i (Derive.ser mode T v).exec.1 (by simp [hi]) _ (by omega),
      List.drop_eq_nil_of_le (by omega), List.append_nil, List.map_set]
  · intro k bs hk hki hbs torn
    have hf : torn = _ := overwritten_record front _ hlen k (Derive.ser mode T vs[k]).exec.1
      (by simp [hk]) bs hbs
    have hlen' := set_lengths _ hlen k (bs ++ (Derive.ser mode T vs[k]).exec.1.drop bs.length) (by
      have := hlen1 vs[k] (hv _ (List.getElem_mem hk)).1 (hv _ (List.getElem_mem hk)).2
      rw [List.length_append, List.length_drop]
      omega)
    rw [hf, drop_record_cons front _ hlen' i (Derive.ser mode T v).exec.1 (by
      rw [List.getElem?_set_ne hki]; simp [hi]), hx]

/-- `struct Sample { at: f64, level: i8, ok: bool }` -/
def gaugeTy : RTy := .struct "Sample" (.named [.mk [] "at" .f64, .mk [] "level" .i8,
  .mk [] "ok" .bool])

theorem gauge_type : Announces gaugeTy (.tuple [.float64, .int8, .boolean]) ∧ Plain gaugeTy ∧
    Readable gaugeTy ∧ Symmetric gaugeTy ∧ Defaulted sampleEnv gaugeTy ∧ Lossless gaugeTy := by
  have k1 : ¬ Skipped [] := by decide
  have d1 : ¬ SkippedDe [] := by decide
  have c1 : ¬ Conditional [] := by decide
  refine ⟨(announces_iff _ _).mpr ⟨.struct _ _ _ (by decide)
      (.cons _ _ _ _ .f64 (.cons _ _ _ _ .i8 (.cons _ _ _ _ .bool .nil))),
      by simp [Countable, AllCountable]⟩, ?_, ?_, ?_, ?_, ?_⟩ <;>
  · intro U hU
    simp [gaugeTy, typeParts, typePartsFields, k1] at hU
    rcases hU with rfl | rfl | rfl | rfl <;>
      simp [PlainPart, ReadablePart, SymmetricPart, SymmetricFields, DefaultedPart, DefaultedFields,
        LosslessPart, declared, fieldAttrs, fieldType, k1, d1, c1]

theorem gauge_fixed (t : Target) : FixedBody t (.tuple [.float64, .int8, .boolean]) 10 := by
  simp [FixedBody, minBody, minBodies, maxBody, maxBodies, addBound]

theorem gauge_real (t : Target) (mode : BuildMode) (v : Derive.Carrier gaugeTy) :
    Real t gaugeTy v ∧ DatesRebase mode gaugeTy v := by
  have k1 : ¬ Skipped [] := by decide
  obtain ⟨a, b, c, ⟨⟩⟩ := v
  have hp : ∀ p, p ∈ valueParts gaugeTy (a, b, c, ()) ↔ p = ⟨gaugeTy, (a, b, c, ())⟩ ∨
      p = ⟨.f64, a⟩ ∨ p = ⟨.i8, b⟩ ∨ p = ⟨.bool, c⟩ := by
    intro p
    simp [gaugeTy, valueParts, valuePartsFields, k1]
  refine ⟨fun p h => ?_, fun _ d h => ?_⟩
  · rcases (hp p).mp h with rfl | rfl | rfl | rfl <;> trivial
  · rcases (hp _).mp h with h | h | h | h <;> cases h

/-- Whatever the samples: each is read at ten times its number, behind the header. -/
example (t : Target) (hm : 4096 ≤ t.memLimit) (mode : BuildMode)
    (vs : List (Derive.Carrier gaugeTy)) (i : Nat) (v : Derive.Carrier gaugeTy)
    (hi : vs[i]? = some v) :
    let front := headerWire (.tuple [.float64, .int8, .boolean])
    let file := front ++ (vs.map fun v => (Derive.ser mode gaugeTy v).exec.1).flatten
    front.length = 5 ∧ Prog.exec t .eof (Derive.deTy t mode sampleEnv gaugeTy)
      (file.drop (5 + i * 10)) = .ok (v, file.drop (5 + (i + 1) * 10)) := by
  obtain ⟨h1, h2, h3, h4, h5, h6⟩ := gauge_type
  have hf : (headerWire (.tuple [.float64, .int8, .boolean])).length = 5 := by decide +kernel
  have := (C137_derived t hm mode sampleEnv sample_fair gaugeTy _ h1 h2 h3 h4 h5 h6 10
    (gauge_fixed t) vs (fun v _ => gauge_real t mode v) (headerWire (.tuple [.float64, .int8, .boolean]))
    i v hi .eof).1
  rw [hf] at this
  exact ⟨hf, this⟩

end Dlhn.Props
