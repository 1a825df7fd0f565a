import Verif.Props.AnyWriter
import Verif.Props.SelfLog
/-!
# C119: any writer, dynamic values, derived types, recursive types and headers
-/
namespace Dlhn.Props

open Spec hiding variantFields
open De

variable {σ : Type} {step : WStep σ}

theorem _root_.Dlhn.Delivered.started {ε : Type} {onErr : IoErr → ε} {want : List UInt8 × Outcome ε Unit}
    {cs cs₁ : List WCall} {o : Outcome ε Unit} (hd : Delivered onErr want cs o) (hc : cs₁ <+: cs) :
    accepted cs₁ <+: want.1 := by
  obtain ⟨cs₂, rfl⟩ := hc
  cases cs₂ with
  | nil =>
    rw [List.append_nil] at hd
    rcases hd.2 with ⟨i, -⟩ | ⟨_, _, _, _, -, -, -, -, i, -⟩
    · rw [i]; exact List.prefix_refl _
    · exact i
  | cons c cs₂ =>
    obtain ⟨bs, r⟩ := c
    exact (List.prefix_append _ _).trans (hd.1 cs₁ bs r cs₂ rfl).2

theorem _root_.Dlhn.Delivered.crash {α : Type} {t : Target} {p : Prog DeErr α} {enc : List UInt8} {v : α}
    (hr : Recognised t p enc v) {ε : Type} {onErr : IoErr → ε} {w : Outcome ε Unit}
    {cs cs₁ : List WCall} {o : Outcome ε Unit} (hd : Delivered onErr (enc, w) cs o)
    (hc : cs₁ <+: cs) :
    (Prog.run t p (accepted cs₁) = .ok (v, []) ∧ accepted cs₁ = enc) ∨
    (Prog.run t p (accepted cs₁) = .err .read ∧ accepted cs₁ <+: enc ∧ accepted cs₁ ≠ enc) := by
  have hp := hd.started hc
  by_cases he : accepted cs₁ = enc
  · left
    refine ⟨?_, he⟩
    have := Prog.run_complete (recognised_complete hr [])
    rw [he]
    rwa [List.append_nil] at this
  · exact .inr ⟨hr.slice _ hp he, hp, he⟩

theorem _root_.Dlhn.Delivered.end_to_end {α : Type} {t : Target} {p : Prog DeErr α} (ht : Prog.Tame orRead p)
    {enc : List UInt8} {v : α} (hr : Recognised t p enc v) {ε : Type} {onErr : IoErr → ε}
    {cs : List WCall} {o : Outcome ε Unit} (hw : Delivered onErr (enc, .ok ()) cs o)
    {ρ : Type} {rstep : RStep ρ} (hl : rstep.Lawful) {q q' : ρ} {ds : List ReadRes}
    {x : Outcome DeErr α} (hx : Runs rstep t p q ds x q') (rest : List UInt8)
    (hrest : o ≠ .ok () → rest = []) (hd : handed ds <+: accepted cs ++ rest) :
    (x = .ok v ∧ handed ds = accepted cs ∧ o = .ok ()) ∨
    (x = .err .read ∧ ∃ c, ds.getLast? = some c ∧ c.ends ≠ none) := by
  rcases hw.2 with ⟨i1, i2, -⟩ | ⟨_, _, _, e, -, -, -, i4, i5, i6⟩
  · simp only at i1 i2
    rw [i1] at hd
    rcases hx.written hl ht (recognised_complete hr rest) ((before_prefix ds).trans hd) with
      ⟨j1, j2, -⟩ | ⟨j1, -, -, z, j4⟩
    · exact .inl ⟨j1, by rw [j2, i1], i2⟩
    · obtain ⟨c, h4, h5⟩ := j4.last
      exact .inr ⟨j1, c, h4, by rw [h5]; simp⟩
  · simp only at i5 i6
    rw [hrest (by rw [i4]; simp), List.append_nil] at hd
    rcases hx.written hl ht (recognised_complete hr [])
      ((before_prefix ds).trans (by rw [List.append_nil]; exact hd.trans i5)) with
      ⟨-, j2, -⟩ | ⟨j1, -, -, z, j4⟩
    · have := hd.length_le
      have h3 := i5.length_le
      rw [j2] at this
      exact (i6 (i5.eq_of_length (by omega))).elim
    · obtain ⟨c, h4, h5⟩ := j4.last
      exact .inr ⟨j1, c, h4, by rw [h5]; simp⟩

/-! ## At every moment -/

/-- `C119_crash` for dynamic values: whatever has been accepted when serializing is stopped is read
as the body if it is all of it, and otherwise as `Err(Read)`. -/
theorem C119_crash_body (t : Target) (hm : 4096 ≤ t.memLimit) (mode : BuildMode) (size : Nat)
    (hdr : Header) (b : Body) (hv : Body.validate hdr b = true) (he : Spec.Exists t b)
    (hc : CleanDecimals b) (hdt : DatesFit mode b) (hf : VectorsFit t size b) {s s' : σ}
    {cs cs₁ : List WCall} {o : Outcome SerErr Unit} (h : WRuns step (b.ser mode) s cs o s')
    (hp : cs₁ <+: cs) :
    (Prog.run t (Body.de t mode size hdr) (accepted cs₁) = .ok (b, []) ∧
      accepted cs₁ = (b.toVec mode).1) ∨
    (Prog.run t (Body.de t mode size hdr) (accepted cs₁) = .err .read ∧
      accepted cs₁ <+: (b.toVec mode).1 ∧ accepted cs₁ ≠ (b.toVec mode).1) := by
  obtain ⟨enc, h1, h2⟩ := C102_body t hm mode size hdr b hv he hc hdt hf
  have hd := C119_body mode b h
  rw [h1] at hd ⊢
  exact hd.crash h2 hp

/-- For types with derived implementations; the value comes back as it does without a crash. -/
theorem C119_crash_derived (t : Target) (hm : 4096 ≤ t.memLimit) (mode : BuildMode)
    (env : Derive.Env) (ho : FairOrder env) (T : RTy) (v : Derive.Carrier T)
    (hx : ReadsBack t mode env ⟨T, v⟩) {s s' : σ} {cs cs₁ : List WCall} {o : Outcome SerErr Unit}
    (h : WRuns step (Derive.ser mode T v) s cs o s') (hp : cs₁ <+: cs) :
    ((∃ w, Prog.run t (Derive.deTy t mode env T) (accepted cs₁) = .ok (w, []) ∧
        Returned env T v w) ∧ accepted cs₁ = (Derive.ser mode T v).exec.1) ∨
    (Prog.run t (Derive.deTy t mode env T) (accepted cs₁) = .err .read ∧
      accepted cs₁ <+: (Derive.ser mode T v).exec.1 ∧
      accepted cs₁ ≠ (Derive.ser mode T v).exec.1) := by
  obtain ⟨w, enc, h1, hw, h2⟩ := C102_derived t hm mode env ho T v hx
  have hd := C119_derived mode T v h
  rw [h1] at hd ⊢
  rcases hd.crash h2 hp with ⟨a, b⟩ | h
  · exact .inl ⟨⟨w, a, hw⟩, b⟩
  · exact .inr h

/-- For values of recursive types. -/
theorem C119_crash_recursive (t : Target) (hm : 4096 ≤ t.memLimit) (defs : Rec.Defs)
    (hs : ∀ n, RecSupported (defs n)) (n : String) (d : Nat) (v : Val) (hv : Deep t defs d n v)
    {s s' : σ} {cs cs₁ : List WCall} {o : Outcome SerErr Unit}
    (h : WRuns step (Ser.ser v) s cs o s') (hp : cs₁ <+: cs) :
    (Prog.run t (Rec.deNamed t defs d n) (accepted cs₁) = .ok (v, []) ∧
      accepted cs₁ = (Ser.toVec v).1) ∨
    (Prog.run t (Rec.deNamed t defs d n) (accepted cs₁) = .err .read ∧
      accepted cs₁ <+: (Ser.toVec v).1 ∧ accepted cs₁ ≠ (Ser.toVec v).1) := by
  obtain ⟨enc, h1, h2⟩ := C102_recursive t hm defs hs n d v hv
  have hd := C119_typed v h
  rw [h1] at hd ⊢
  exact hd.crash h2 hp

/-- A part of a header is `UnexpectedEof`. -/
theorem header_part (t : Target) (size d : Nat) (hmem : 65535 * size ≤ t.memLimit)
    (hptr : 65535 * size ≤ t.isizeMax) (hdr : Header) (hc : Countable hdr) (hd : depth hdr ≤ d)
    (pre : List UInt8) (hp : pre <+: hdr.toVec.1) (hne : pre ≠ hdr.toVec.1) :
    Prog.run t (Header.deserialize size d) pre = .err .unexpectedEof := by
  obtain ⟨enc, h1, h2⟩ := C30_roundtrip t size d hmem hptr hdr hc hd
  rw [h1] at hp hne
  obtain ⟨used, e1, -, e3⟩ := Prog.complete_split t (Prog.complete_of_rest t (h2 [0]) (by simp))
  rw [← List.append_cancel_right e1] at e3
  exact Prog.run_incomplete (Header.strict_deserialize size d) (e3 pre hp hne)

/-- For headers. -/
theorem C119_crash_header (t : Target) (size d : Nat) (hmem : 65535 * size ≤ t.memLimit)
    (hptr : 65535 * size ≤ t.isizeMax) (hdr : Header) (hc : Countable hdr) (hd : depth hdr ≤ d)
    {s s' : σ} {cs cs₁ : List WCall} {o : Outcome IoErr Unit}
    (h : WRuns step hdr.serialize s cs o s') (hp : cs₁ <+: cs) :
    (Prog.run t (Header.deserialize size d) (accepted cs₁) = .ok (hdr, []) ∧
      accepted cs₁ = hdr.toVec.1) ∨
    (Prog.run t (Header.deserialize size d) (accepted cs₁) = .err .unexpectedEof ∧
      accepted cs₁ <+: hdr.toVec.1 ∧ accepted cs₁ ≠ hdr.toVec.1) := by
  have hpre := (C119_header hdr h).started hp
  by_cases he : accepted cs₁ = hdr.toVec.1
  · obtain ⟨enc, h1, h2⟩ := C30_roundtrip t size d hmem hptr hdr hc hd
    have := h2 []
    rw [List.append_nil] at this
    exact .inl ⟨by rw [he, h1]; exact this, he⟩
  · exact .inr ⟨header_part t size d hmem hptr hdr hc hd _ hpre he, hpre, he⟩

/-! ## From any writer to any reader -/

variable {ρ : Type} {rstep : RStep ρ}

/-- `C119_end_to_end` for dynamic values. -/
theorem C119_end_to_end_body (hl : rstep.Lawful) (t : Target) (hm : 4096 ≤ t.memLimit)
    (mode : BuildMode) (size : Nat) (hdr : Header) (b : Body) (hv : Body.validate hdr b = true)
    (he : Spec.Exists t b) (hc : CleanDecimals b) (hdt : DatesFit mode b)
    (hf : VectorsFit t size b) {s s' : σ} {cs : List WCall} {o : Outcome SerErr Unit}
    (h : WRuns step (b.ser mode) s cs o s') {q q' : ρ} {ds : List ReadRes}
    {x : Outcome DeErr Body} (hr : Runs rstep t (Body.de t mode size hdr) q ds x q')
    (rest : List UInt8) (hrest : o ≠ .ok () → rest = [])
    (hd : handed ds <+: accepted cs ++ rest) :
    (x = .ok b ∧ handed ds = accepted cs ∧ o = .ok ()) ∨
    (x = .err .read ∧ ∃ c, ds.getLast? = some c ∧ c.ends ≠ none) := by
  obtain ⟨enc, h1, h2⟩ := C102_body t hm mode size hdr b hv he hc hdt hf
  have hw := C119_body mode b h
  rw [h1] at hw
  exact hw.end_to_end (Body.tame_de t mode size hdr) h2 hl hr rest hrest hd

/-- For types with derived implementations. -/
theorem C119_end_to_end_derived (hl : rstep.Lawful) (t : Target) (hm : 4096 ≤ t.memLimit)
    (mode : BuildMode) (env : Derive.Env) (ho : FairOrder env) (T : RTy) (v : Derive.Carrier T)
    (hx : ReadsBack t mode env ⟨T, v⟩) {s s' : σ} {cs : List WCall} {o : Outcome SerErr Unit}
    (h : WRuns step (Derive.ser mode T v) s cs o s') {q q' : ρ} {ds : List ReadRes}
    {x : Outcome DeErr (Derive.Carrier T)} (hr : Runs rstep t (Derive.deTy t mode env T) q ds x q')
    (rest : List UInt8) (hrest : o ≠ .ok () → rest = [])
    (hd : handed ds <+: accepted cs ++ rest) :
    ((∃ w, x = .ok w ∧ Returned env T v w) ∧ handed ds = accepted cs ∧ o = .ok ()) ∨
    (x = .err .read ∧ ∃ c, ds.getLast? = some c ∧ c.ends ≠ none) := by
  obtain ⟨w, enc, h1, hw, h2⟩ := C102_derived t hm mode env ho T v hx
  have hdel := C119_derived mode T v h
  rw [h1] at hdel
  rcases hdel.end_to_end (Derive.tame_deTy t mode env T) h2 hl hr rest hrest hd with
    ⟨a, b⟩ | h
  · exact .inl ⟨⟨w, a, hw⟩, b⟩
  · exact .inr h

/-- For values of recursive types. -/
theorem C119_end_to_end_recursive (hl : rstep.Lawful) (t : Target) (hm : 4096 ≤ t.memLimit)
    (defs : Rec.Defs) (hs : ∀ n, RecSupported (defs n)) (n : String) (d : Nat) (v : Val)
    (hv : Deep t defs d n v) {s s' : σ} {cs : List WCall} {o : Outcome SerErr Unit}
    (h : WRuns step (Ser.ser v) s cs o s') {q q' : ρ} {ds : List ReadRes}
    {x : Outcome DeErr Val} (hr : Runs rstep t (Rec.deNamed t defs d n) q ds x q')
    (rest : List UInt8) (hrest : o ≠ .ok () → rest = [])
    (hd : handed ds <+: accepted cs ++ rest) :
    (x = .ok v ∧ handed ds = accepted cs ∧ o = .ok ()) ∨
    (x = .err .read ∧ ∃ c, ds.getLast? = some c ∧ c.ends ≠ none) := by
  obtain ⟨enc, h1, h2⟩ := C102_recursive t hm defs hs n d v hv
  have hw := C119_typed v h
  rw [h1] at hw
  exact hw.end_to_end (Rec.tame_named t defs d n) h2 hl hr rest hrest hd

/-- For headers; the error is the reader's. -/
theorem C119_end_to_end_header (hl : rstep.Lawful) (t : Target) (size d : Nat)
    (hmem : 65535 * size ≤ t.memLimit) (hptr : 65535 * size ≤ t.isizeMax) (hdr : Header)
    (hc : Countable hdr) (hdp : depth hdr ≤ d) {s s' : σ} {cs : List WCall}
    {o : Outcome IoErr Unit} (h : WRuns step hdr.serialize s cs o s') {q q' : ρ}
    {ds : List ReadRes} {x : Outcome IoErr Header}
    (hr : Runs rstep t (Header.deserialize size d) q ds x q')
    (rest : List UInt8) (hrest : o ≠ .ok () → rest = [])
    (hd : handed ds <+: accepted cs ++ rest) :
    (x = .ok hdr ∧ handed ds = accepted cs ∧ o = .ok ()) ∨
    (∃ c e, ds.getLast? = some c ∧ c.ends = some e ∧ x = .err e.shortErr) := by
  obtain ⟨enc, h1, h2⟩ := C30_roundtrip t size d hmem hptr hdr hc hdp
  rcases C117_header hl t size d hr with j | ⟨c, e, j1, j2, j3, -⟩
  rotate_left
  · exact .inr ⟨c, e, j1, j2, j3⟩
  have hw := (C119_header hdr h).2
  obtain ⟨more, hmore⟩ := hd
  have key : ∀ more', handed ds ++ more' = enc ++ rest →
      x = .ok hdr ∧ handed ds = enc := by
    intro more' hx
    have ha := j more'
    rw [hx, h2 rest] at ha
    cases x with
    | ok y =>
      simp only [Outcome.map, Outcome.ok.injEq, Prod.mk.injEq] at ha
      obtain ⟨rfl, rfl⟩ := ha
      exact ⟨rfl, List.append_cancel_right hx⟩
    | err e => cases ha
    | panic k => cases ha
  rcases hw with ⟨i1, i2, -⟩ | ⟨_, _, _, e, -, -, -, i4, i5, i6⟩
  · rw [h1] at i1 i2
    simp only at i1 i2
    rw [i1] at hmore
    obtain ⟨k1, k2⟩ := key more hmore
    exact .inl ⟨k1, by rw [k2, i1], i2⟩
  · have hr0 := hrest (by rw [i4]; simp)
    subst hr0
    rw [List.append_nil] at hmore
    rw [h1] at i5 i6
    obtain ⟨m2, i5⟩ := i5
    simp only at i5 i6
    obtain ⟨-, k2⟩ := key (more ++ m2) (by rw [← List.append_assoc, hmore, i5, List.append_nil])
    have l1 := congrArg List.length hmore
    have l2 := congrArg List.length i5
    rw [List.length_append] at l1 l2
    rw [k2] at l1
    have hm2 : m2 = [] := List.length_eq_zero_iff.mp (by omega)
    rw [hm2, List.append_nil] at i5
    exact (i6 i5).elim

/-! ## Examples -/

/-- They apply to a body, a derived struct with a skipped field and a recursive value on a 32-bit
target, and to any writer. -/
example {s s' : σ} {cs cs₁ : List WCall} {o : Outcome SerErr Unit}
    (h : WRuns step (sampleBody.ser .debug) s cs o s') (hp : cs₁ <+: cs) :
    Prog.run ⟨.w32, 4096⟩ (Body.de ⟨.w32, 4096⟩ .debug 56 sampleShape) (accepted cs₁) =
      .ok (sampleBody, []) ∨
    Prog.run ⟨.w32, 4096⟩ (Body.de ⟨.w32, 4096⟩ .debug 56 sampleShape) (accepted cs₁) =
      .err .read := by
  have ⟨h1, h2, h3, h4, h5⟩ := sampleBody_meets ⟨.w32, 4096⟩ .debug 56 (by decide)
  exact (C119_crash_body _ (by decide) _ _ _ _ h1 h2 h3 h4 h5 h hp).imp And.left And.left

example (mode : BuildMode) {s s' : σ} {cs cs₁ : List WCall} {o : Outcome SerErr Unit}
    (h : WRuns step (Derive.ser mode recordTy recordVal) s cs o s') (hp : cs₁ <+: cs) :
    (∃ w, Prog.run ⟨.w32, 4096⟩ (Derive.deTy ⟨.w32, 4096⟩ mode sampleEnv recordTy) (accepted cs₁) =
      .ok (w, []) ∧ Returned sampleEnv recordTy recordVal w) ∨
    Prog.run ⟨.w32, 4096⟩ (Derive.deTy ⟨.w32, 4096⟩ mode sampleEnv recordTy) (accepted cs₁) =
      .err .read :=
  (C119_crash_derived _ (by decide) mode _ sample_fair _ _ (record_reads _ (by decide) mode) h
    hp).imp And.left And.left

example {s s' : σ} {cs cs₁ : List WCall} {o : Outcome SerErr Unit}
    (h : WRuns step (Ser.ser sampleJson) s cs o s') (hp : cs₁ <+: cs) :
    Prog.run ⟨.w32, 4096⟩ (Rec.deNamed ⟨.w32, 4096⟩ sampleDefs 3 "Json") (accepted cs₁) =
      .ok (sampleJson, []) ∨
    Prog.run ⟨.w32, 4096⟩ (Rec.deNamed ⟨.w32, 4096⟩ sampleDefs 3 "Json") (accepted cs₁) =
      .err .read :=
  (C119_crash_recursive _ (by decide) _ sampleDefs_supported _ _ _ (sampleJson_deep _) h hp).imp
    And.left And.left

/-- The header of a pair and a pipe with room for two of its four bytes. -/
example : WRuns pipe (Header.tuple [.string, .uint8]).serialize 2
    [([21], .ok 1), ([2], .ok 1), ([18], .ok 0)] (.err .writeZero) 0 := by
  refine .writeAll (cs := [([21], .ok 1)]) (s' := 1) ?_
    (.writeAll (cs := [([2], .ok 1)]) (s' := 0) ?_ (.writeAllErr (e := .writeZero) ?_))
  · exact .more (n := 0) (by decide) ⟨rfl, rfl⟩ (.empty _)
  · exact .more (n := 0) (by decide) ⟨rfl, rfl⟩ (.empty _)
  · exact .zero (by decide) ⟨rfl, rfl⟩

/-- What has arrived is seen to be a part. -/
example {cs cs₁ : List WCall} {o : Outcome IoErr Unit} {n' : Nat}
    (h : WRuns pipe (Header.tuple [.string, .uint8]).serialize 2 cs o n') (hp : cs₁ <+: cs)
    (hne : accepted cs₁ ≠ (Header.tuple [.string, .uint8]).toVec.1) :
    Prog.run ⟨.w64, 4194304⟩ (Header.deserialize 56 2) (accepted cs₁) = .err .unexpectedEof := by
  rcases C119_crash_header ⟨.w64, 4194304⟩ 56 2 (by decide) (by decide) _
    (by simp [Countable, AllCountable]) (by decide) h hp with ⟨-, h⟩ | ⟨h, -⟩
  · exact absurd h hne
  · exact h

end Dlhn.Props
