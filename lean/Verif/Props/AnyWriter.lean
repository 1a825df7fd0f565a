import Verif.Proof.AnyWriter
import Verif.Proof.DeriveSer
import Verif.Proof.Derive
import Verif.Props.AnyReader
import Verif.Props.Io
import Verif.Props.SerImpl
import Verif.Props.Body
import Verif.Props.Header
/-!
# C119: any writer

The writer is anything that answers `write` calls: `step` says which answers are possible
(Model/AnyWriter.lean), and `WRuns step p s cs o s'` is a run of an encoder on it, `cs`
being all its `write` calls, with buffer and answer, and `o` the outcome. `Delivered`
(Spec/AnyWriter.lean) says what has become of the data.
-/
namespace Dlhn.Props

open Spec De

variable {σ : Type} {step : WStep σ}

/-- Whatever the writer does, typed values. -/
theorem C119_typed (v : Val) {s s' : σ} {cs : List WCall} {o : Outcome SerErr Unit}
    (h : WRuns step (Ser.ser v) s cs o s') :
    Delivered (fun _ => SerErr.write) (Ser.toVec v) cs o :=
  h.delivered (Ser.good_ser v).maps

/-- The same for every `Serialize` implementation that passes errors on. -/
theorem C119_impl (p : SerImpl) (hp : PassesOn p) {s s' : σ} {cs : List WCall}
    {o : Outcome SerErr Unit} (h : CRuns step p.run s cs o s') :
    Delivered (fun _ => SerErr.write) p.run.exec cs o := by
  obtain ⟨q, hq, he⟩ := stops_run p hp
  rw [he] at h ⊢
  rw [WCode.exec_ofProg]
  exact h.ofProg.delivered hq.maps

/-- The same for dynamic values. -/
theorem C119_body (mode : BuildMode) (b : Body) {s s' : σ} {cs : List WCall}
    {o : Outcome SerErr Unit} (h : WRuns step (b.ser mode) s cs o s') :
    Delivered (fun _ => SerErr.write) (b.toVec mode) cs o :=
  h.delivered (Body.maps_ser mode b)

/-- The same for types with derived implementations. -/
theorem C119_derived (mode : BuildMode) (T : RTy) (v : Derive.Carrier T) {s s' : σ}
    {cs : List WCall} {o : Outcome SerErr Unit} (h : WRuns step (Derive.ser mode T v) s cs o s') :
    Delivered (fun _ => SerErr.write) (Derive.ser mode T v).exec cs o :=
  h.delivered (Derive.wclosed_ser Derive.wclosed_maps mode (.inr trivial) T v)

/-- Headers: the error of the writer is passed on. -/
theorem C119_header (hd : Header) {s s' : σ} {cs : List WCall} {o : Outcome IoErr Unit}
    (h : WRuns step hd.serialize s cs o s') : Delivered id hd.toVec cs o :=
  h.delivered (Header.maps_serialize hd)

/-- The same for the headers of types. -/
theorem C119_type_header (T : RTy) (p : WProg IoErr) (hp : Derive.serializeHeader T = .ok p)
    {s s' : σ} {cs : List WCall} {o : Outcome IoErr Unit} (h : WRuns step p s cs o s') :
    Delivered id p.exec cs o :=
  h.delivered (Derive.maps_header T p hp)

/-- Serializing ends on every writer that always answers and is not interrupted without
end. -/
theorem C119_ends (hl : step.Lawful) (hv : step.Live) :
    (∀ {ε : Type} (p : WProg ε) (s : σ), ∃ cs o s', WRuns step p s cs o s') ∧
    (∀ (p : SerImpl) (s : σ), ∃ cs o s', CRuns step p.run s cs o s') :=
  ⟨fun p s => WRuns.exists hl hv p s, fun p s => CRuns.exists hl hv p.run s⟩

/-- On a writer that is interrupted without end, serializing a value that takes a byte or
more does not end. -/
theorem C119_hangs (hi : ∀ s bs r s', step s bs r s' → r = .interrupted) (v : Val)
    (h0 : (Ser.toVec v).1 ≠ []) (s : σ) : ¬ ∃ cs o s', WRuns step (Ser.ser v) s cs o s' := by
  rintro ⟨cs, o, s', h⟩
  have hc : ∀ c ∈ cs, c.2 = .interrupted := fun c hc => by
    obtain ⟨s, s', h⟩ := h.answers c hc
    exact hi _ _ _ _ h
  have hh : ∀ cs : List WCall, (∀ c ∈ cs, c.2 = .interrupted) → accepted cs = [] := by
    intro cs hc
    induction cs with
    | nil => rfl
    | cons c cs ih =>
      obtain ⟨bs, r⟩ := c
      rw [List.forall_mem_cons] at hc
      simp only at hc
      rw [hc.1, accepted]
      exact ih hc.2
  rcases (C119_typed v h).2 with ⟨h1, -⟩ | ⟨cs₁, bs, r, e, h1, -, h2, -⟩
  · rw [hh cs hc] at h1; exact h0 h1.symm
  · have := hc (bs, r) (by rw [h1]; simp)
    simp only at this
    rw [this] at h2
    cases h2

/-- The writers of Model/Writer.lean, which are lists of answers, are as good as any: every
run on any writer is a run on such a list, whatever is behind it. So the other
properties, proved for these, hold for every writer. -/
theorem C119_replayed (tail : WScript) :
    (∀ {ε : Type} {p : WProg ε} {s s' : σ} {cs : List WCall} {o : Outcome ε Unit},
      WRuns step p s cs o s' → p.runScript (cs.map (·.2.event) ++ tail) = (accepted cs, o)) ∧
    (∀ {p : SerImpl} {s s' : σ} {cs : List WCall} {o : Outcome SerErr Unit},
      CRuns step p.run s cs o s' →
        p.run.runScript (cs.map (·.2.event) ++ tail) = (accepted cs, o)) :=
  ⟨fun h => h.replay tail, fun h => h.replay tail⟩

/-- At every moment - a crash, power loss, a connection that breaks - what the writer
has accepted up to then is a beginning of the encoding; reading it is `Err(Read)`, or
all of the value is there. -/
theorem C119_crash (t : Target) (hm : 4096 ≤ t.memLimit) (ty : Ty) (hs : Supported ty) (v : Val)
    (hv : Has t ty v) {s s' : σ} {cs cs₁ : List WCall} {o : Outcome SerErr Unit}
    (h : WRuns step (Ser.ser v) s cs o s') (hc : cs₁ <+: cs) :
    (Prog.run t (de t ty) (accepted cs₁) = .ok (v, []) ∧ accepted cs₁ = (Ser.toVec v).1) ∨
    (Prog.run t (de t ty) (accepted cs₁) = .err .read ∧
      accepted cs₁ <+: (Ser.toVec v).1 ∧ accepted cs₁ ≠ (Ser.toVec v).1) := by
  obtain ⟨enc, h1, h2⟩ := C07_roundtrip t hm ty hs v hv
  have hd := C119_typed v h
  have hp : accepted cs₁ <+: (Ser.toVec v).1 := by
    obtain ⟨cs₂, rfl⟩ := hc
    cases cs₂ with
    | nil =>
      rw [List.append_nil] at hd
      rcases hd.2 with ⟨i, -⟩ | ⟨_, _, _, _, -, -, -, -, i, -⟩
      · rw [i]; exact List.prefix_refl _
      · exact i
    | cons c cs₂ =>
      obtain ⟨bs, r⟩ := c
      exact (List.prefix_append _ _).trans (hd.1 cs₁ bs r cs₂ rfl).2
  by_cases he : accepted cs₁ = (Ser.toVec v).1
  · left
    refine ⟨?_, he⟩
    have := h2 []
    rw [he, h1]
    simpa using this
  · right
    refine ⟨?_, hp, he⟩
    rw [h1] at hp he
    exact (Prog.recognised (tame_de t ty) (h2 [0]) (by simp)).slice _ hp he

/-- From any writer to any reader: the reader delivers what the writer has accepted, after
a success anything may follow. Then decoding returns the value that was serialized or
`Err(Read)`, and it returns the value only if all of it was accepted. -/
theorem C119_end_to_end {ρ : Type} {rstep : RStep ρ} (hl : rstep.Lawful) (t : Target)
    (hm : 4096 ≤ t.memLimit) (ty : Ty) (hs : Supported ty) (v : Val) (hv : Has t ty v)
    {s s' : σ} {cs : List WCall} {o : Outcome SerErr Unit} (h : WRuns step (Ser.ser v) s cs o s')
    {q q' : ρ} {ds : List ReadRes} {x : Outcome DeErr Val} (hr : Runs rstep t (de t ty) q ds x q')
    (rest : List UInt8) (hrest : o ≠ .ok () → rest = [])
    (hd : handed ds <+: accepted cs ++ rest) :
    (x = .ok v ∧ handed ds = accepted cs ∧ o = .ok ()) ∨
    (x = .err .read ∧ ∃ c, ds.getLast? = some c ∧ c.ends ≠ none) := by
  obtain ⟨enc, h1, -⟩ := C07_roundtrip t hm ty hs v hv
  rcases (C119_typed v h).2 with ⟨i1, i2, -⟩ | ⟨_, _, _, e, -, -, -, i4, i5, i6⟩
  · rw [i1] at hd
    rcases C117_written hl t hm ty hs v hv rest hr hd with ⟨j1, j2⟩ | ⟨j1, -, -, j4⟩
    · exact .inl ⟨j1, by rw [j2, i1], by rw [i2, h1]⟩
    · exact .inr ⟨j1, j4⟩
  · rw [hrest (by rw [i4]; simp), List.append_nil] at hd
    rcases C117_written hl t hm ty hs v hv [] hr (by rw [List.append_nil]; exact hd.trans i5) with
      ⟨-, j2⟩ | ⟨j1, -, -, j4⟩
    · have := hd.length_le
      have h3 := i5.length_le
      rw [j2] at this
      exact (i6 (i5.eq_of_length (by omega))).elim
    · exact .inr ⟨j1, j4⟩

/-! ## Examples -/

/-- A pipe with room for `n` bytes that nobody reads from: it accepts what fits, and then
nothing. -/
def pipe : WStep Nat := fun n bs r n' => r = .ok (min n bs.length) ∧ n' = n - bs.length

theorem pipe_lawful : pipe.Lawful := by
  rintro s bs n s' ⟨h, -⟩
  cases h
  exact Nat.min_le_right _ _

theorem pipe_live : pipe.Live :=
  ⟨fun _ _ _ => ⟨_, _, rfl, rfl⟩, fun _ => 0, fun _ _ _ h => by simp [pipe] at h⟩

/-- A string of three bytes and a pipe with room for three: the length and two bytes arrive. -/
example : WRuns pipe (Ser.ser (.str "abc")) 3
    [([3], .ok 1), ([97, 98, 99], .ok 2), ([99], .ok 0)] (.err .write) 0 := by
  refine .writeAll (cs := [([3], .ok 1)]) (s' := 2) ?_ (.writeAllErr (e := .writeZero) ?_)
  · exact .more (n := 0) (by decide) ⟨rfl, rfl⟩ (.empty _)
  · exact .more (n := 1) (by decide) ⟨rfl, rfl⟩ (.zero (by decide) ⟨rfl, rfl⟩)

/-- On such a pipe every run says so. -/
example {cs : List WCall} {o : Outcome SerErr Unit} {n' : Nat}
    (h : WRuns pipe (Ser.ser (.str "abc")) 3 cs o n') :
    Delivered (fun _ => SerErr.write) ([3, 97, 98, 99], .ok ()) cs o := by
  have := C119_typed _ h
  rwa [show Ser.toVec (.str "abc") = ([3, 97, 98, 99], .ok ()) by decide +kernel] at this

/-- A writer that is always interrupted never lets go of a caller who serializes a `u8`. -/
example : ¬ ∃ cs o s', WRuns (fun (_ : Unit) _ r _ => r = .interrupted) (Ser.ser (.u8 7)) () cs o s' :=
  C119_hangs (fun _ _ _ _ h => h) (.u8 7) (by decide +kernel) ()

end Dlhn.Props
