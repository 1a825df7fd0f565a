import Verif.Proof.AnyReader
import Verif.Props.Targets
import Verif.Props.TypedAny
/-!
# C117: any reader

The reader is anything that answers `read` calls: `step` says which answers are possible
(Model/AnyReader.lean), and `Runs step t p s cs o s'` is a run of a decoder on it, `cs`
being the answers of all its `read` calls and `o` the outcome. `Explained`
(Spec/AnyReader.lean) says that the outcome follows from the bytes handed over.
-/
namespace Dlhn.Props

open Spec De

variable {σ : Type} {step : RStep σ}

/-- Whatever the reader does, the outcome follows from the bytes it hands over. -/
theorem C117_typed (hl : step.Lawful) (t : Target) (ty : Ty)
    (ht : t.ptr = .w64 ∨ NoText ty) {s s' : σ}
    {cs : List ReadRes} {o : Outcome DeErr Val} (h : Runs step t (de t ty) s cs o s') :
    Explained t (de t ty) cs o :=
  h.explained hl (strict_on ht)

/-- On every target for types without text. -/
theorem C117_typed_any (hl : step.Lawful) (t : Target) (ty : Ty) (hty : NoText ty) {s s' : σ}
    {cs : List ReadRes} {o : Outcome DeErr Val} (h : Runs step t (de t ty) s cs o s') :
    Explained t (de t ty) cs o :=
  h.explained hl (strict_noText t ty hty)

/-- The same for every `Deserialize` implementation. -/
theorem C117_impl (hl : step.Lawful) (t : Target) {α : Type} (i : Impl α)
    (ht : t.ptr = .w64 ∨ NoTextImpl i)
    {s s' : σ} {cs : List ReadRes} {o : Outcome DeErr α} (h : Runs step t (i.run t) s cs o s') :
    Explained t (i.run t) cs o :=
  h.explained hl (strict_on_impl ht)

/-- The same for dynamic values. -/
theorem C117_body (hl : step.Lawful) (t : Target) (mode : BuildMode)
    (size : Nat) (hd : Header)
    (ht : t.ptr = .w64 ∨ NoTextHeader hd) {s s' : σ} {cs : List ReadRes} {o : Outcome DeErr Body}
    (h : Runs step t (Body.de t mode size hd) s cs o s') :
    Explained t (Body.de t mode size hd) cs o :=
  h.explained hl (Body.strict_on mode size ht)

/-- The same for types with derived implementations. -/
theorem C117_derived (hl : step.Lawful) (t : Target) (mode : BuildMode)
    (env : Derive.Env) (T : RTy)
    (ht : t.ptr = .w64 ∨ NoTextDerived T) {s s' : σ} {cs : List ReadRes}
    {o : Outcome DeErr (Derive.Carrier T)} (h : Runs step t (Derive.deTy t mode env T) s cs o s') :
    Explained t (Derive.deTy t mode env T) cs o :=
  h.explained hl (Derive.strict_on mode env ht)

/-- Headers, on every target: the error of the reader is passed on. -/
theorem C117_header (hl : step.Lawful) (t : Target) (size d : Nat) {s s' : σ}
    {cs : List ReadRes} {o : Outcome IoErr Header}
    (h : Runs step t (Header.deserialize size d) s cs o s') :
    (∀ more, Prog.run t (Header.deserialize size d) (handed cs ++ more)
      = o.map (fun v => (v, more))) ∨
    (∃ c x, cs.getLast? = some c ∧ c.ends = some x ∧ o = .err x.shortErr ∧
      Prog.run t (Header.deserialize size d) (handed cs) = .err .unexpectedEof) := by
  have hp := Header.strict_deserialize size d
  rcases h.stopped hl (.inl hp) with hr | ⟨x, h1, h2, h3⟩
  · exact .inl fun more => Prog.run_complete (h.complete hl hr more)
  · obtain ⟨c, h4, h5⟩ := h1.last
    exact .inr ⟨c, x, h4, h5, h2, Prog.run_incomplete hp h3⟩

/-- On every target: a reader that hands over what was written, or a beginning of it. Either
the value comes out, and exactly its bytes have been taken; or the reader has ended
or failed before, and the outcome is `Err(Read)`. -/
theorem C117_written (hl : step.Lawful) (t : Target) (hm : 4096 ≤ t.memLimit) (ty : Ty)
    (hs : Supported ty) (v : Val) (hv : Has t ty v) (rest : List UInt8) {s s' : σ}
    {cs : List ReadRes} {o : Outcome DeErr Val} (h : Runs step t (de t ty) s cs o s')
    (hc : handed cs <+: (Ser.toVec v).1 ++ rest) :
    (o = .ok v ∧ handed cs = (Ser.toVec v).1) ∨
    (o = .err .read ∧ handed cs <+: (Ser.toVec v).1 ∧ handed cs ≠ (Ser.toVec v).1 ∧
      ∃ c, cs.getLast? = some c ∧ c.ends ≠ none) := by
  obtain ⟨enc, h1, h2⟩ := C07_roundtrip t hm ty hs v hv
  rw [h1] at hc ⊢
  have hx := Prog.complete_of_rest t (h2 [0]) (by simp)
  obtain ⟨used, e1, e2, -⟩ := Prog.complete_split t hx
  rw [← List.append_cancel_right e1] at e2
  rcases h.written hl (tame_de t ty) (e2 rest) ((before_prefix cs).trans hc) with ⟨i1, i2, -⟩ | ⟨i1, i2, i3, x, i4⟩
  · exact .inl ⟨i1, i2⟩
  · obtain ⟨c, h4, h5⟩ := i4.last
    exact .inr ⟨i1, i2, i3, c, h4, by rw [h5]; simp⟩

/-- Decoding ends on every reader that always answers and is not interrupted without end,
be its data endless. -/
theorem C117_ends (hl : step.Lawful) (hv : step.Live) (t : Target) {ε α : Type} (p : Prog ε α)
    (s : σ) : ∃ cs o s', Runs step t p s cs o s' :=
  Runs.exists hl hv t p s

/-- On a reader that is interrupted without end, decoding a type of whose values one takes
a byte or more does not end. -/
theorem C117_hangs (hl : step.Lawful) (hi : ∀ s m r s', step s m r s' → r = .interrupted)
    (t : Target) (hm : 4096 ≤ t.memLimit) (ty : Ty) (hs : Supported ty) (v : Val)
    (hv : Has t ty v) (h0 : (Ser.toVec v).1 ≠ []) (s : σ) :
    ¬ ∃ cs o s', Runs step t (de t ty) s cs o s' := by
  rintro ⟨cs, o, s', h⟩
  have hc : ∀ c ∈ cs, c = .interrupted := fun c hc => by
    obtain ⟨s, m, s', -, h⟩ := h.answers c hc
    exact hi _ _ _ _ h
  have hh : ∀ cs : List ReadRes, (∀ c ∈ cs, c = .interrupted) → handed cs = [] := by
    intro cs hc
    induction cs with
    | nil => rfl
    | cons c cs ih =>
      rw [hc c (by simp), handed]
      exact ih fun c h => hc c (List.mem_cons_of_mem _ h)
  have hn := hh cs hc
  rcases C117_written hl t hm ty hs v hv [] h (by rw [hn]; exact List.nil_prefix) with
    ⟨-, h2⟩ | ⟨-, -, -, c, h3, h4⟩
  · rw [hn] at h2; exact h0 h2.symm
  · exact h4 (by rw [hc c (List.mem_of_getLast? h3)]; rfl)

/-- The readers of Model/Reader.lean, which are lists of answers, are as good as any: every
run on any reader is a run on such a list, whatever is behind it. So the other
properties, proved for these, hold for every reader. -/
theorem C117_replayed (hl : step.Lawful) (t : Target) {ε α : Type} (p : Prog ε α) {s s' : σ}
    {cs : List ReadRes} {o : Outcome ε α} (h : Runs step t p s cs o s') (size : Nat → Nat)
    (hsz : ∀ i, (handed cs).length ≤ size i + 1) (tail : Script) :
    p.runScriptAt t size (cs.map ReadRes.event ++ tail) = (o, tail) :=
  h.replay hl size hsz tail

/-! ## Examples -/

/-- `std::io::repeat(x)`: it fills every buffer, without end. -/
def repeats (x : UInt8) : RStep Unit := fun _ m r _ => r = .ok (List.replicate m x)

theorem repeats_lawful (x : UInt8) : (repeats x).Lawful := by
  intro s m bs s' h
  simp only [repeats, ReadRes.ok.injEq] at h
  simp [h]

theorem repeats_live (x : UInt8) : (repeats x).Live :=
  ⟨fun _ m _ => ⟨.ok (List.replicate m x), (), rfl⟩, fun _ => 0, fun _ _ _ h => by simp [repeats] at h⟩

/-- A string of 3 bytes, each of them 3, from an endless supply of the number 3. -/
theorem repeats_run : ∃ cs s', Runs (repeats 3) ⟨.w64, 4096⟩ (de ⟨.w64, 4096⟩ .string) () cs
    (.ok (.str "\x03\x03\x03")) s' ∧ handed cs = [3, 3, 3, 3] := by
  obtain ⟨cs, o, s', h⟩ := C117_ends (repeats_lawful 3) (repeats_live 3) ⟨.w64, 4096⟩
    (de ⟨.w64, 4096⟩ .string) ()
  have hall : ∀ cs : List ReadRes, (∀ c ∈ cs, ∃ s m s', 0 < m ∧ repeats 3 s m c s') →
      handed cs = List.replicate (handed cs).length 3 ∧ ∀ c ∈ cs, c.ends = none := by
    intro cs hc
    induction cs with
    | nil => simp [handed]
    | cons c cs ih =>
      obtain ⟨s, m, s', hm, h⟩ := hc c (by simp)
      simp only [repeats] at h
      obtain ⟨i1, i2⟩ := ih fun c h => hc c (List.mem_cons_of_mem _ h)
      refine ⟨?_, ?_⟩
      · rw [h, handed, List.length_append, ← List.replicate_append_replicate, ← i1]
        simp
      · intro d hd
        rcases List.mem_cons.mp hd with rfl | hd
        · rw [h, ends_ok (by simp; omega)]
        · exact i2 d hd
  obtain ⟨h1, h2⟩ := hall cs h.answers
  have he : (Ser.toVec (.str "\x03\x03\x03")).1 = [3, 3, 3, 3] := by decide +kernel
  rcases C117_written (repeats_lawful 3) ⟨.w64, 4096⟩ (by decide) .string (by simp [Supported])
      (.str "\x03\x03\x03") (by simp [Has]; decide) (List.replicate (handed cs).length 3) h (by
        have e : [3, 3, 3, 3] ++ List.replicate (handed cs).length (3 : UInt8)
            = List.replicate (handed cs).length 3 ++ [3, 3, 3, 3] := by
          show List.replicate 4 3 ++ List.replicate _ 3 = List.replicate _ 3 ++ List.replicate 4 3
          rw [List.replicate_append_replicate, List.replicate_append_replicate, Nat.add_comm]
        rw [he, e]
        conv => lhs; rw [h1]
        exact List.prefix_append _ _) with ⟨i1, i2⟩ | ⟨-, -, -, c, i3, i4⟩
  · subst i1
    exact ⟨cs, s', h, by rw [i2, he]⟩
  · exact (i4 (h2 c (List.mem_of_getLast? i3))).elim

/-- The conclusion of `C117_typed` on it. -/
example : ∃ cs, Explained ⟨.w64, 4096⟩ (de ⟨.w64, 4096⟩ .string) cs (.ok (.str "\x03\x03\x03")) ∧
    handed cs = [3, 3, 3, 3] := by
  obtain ⟨cs, s', h1, h2⟩ := repeats_run
  exact ⟨cs, C117_typed (repeats_lawful 3) _ _ (.inl rfl) h1, h2⟩

/-- A reader that is always interrupted never lets go of a caller who decodes a `u8`. -/
example (t : Target) (hm : 4096 ≤ t.memLimit) :
    ¬ ∃ cs o s', Runs (fun (_ : Unit) _ r _ => r = .interrupted) t (de t .u8) () cs o s' :=
  C117_hangs (fun _ _ _ _ h => by simp at h) (fun _ _ _ _ h => h) t hm .u8 (by simp [Supported])
    (.u8 7) (by simp [Has]) (by decide +kernel) ()

/-- A reader whose answers are not determined: after any number of interruptions it hands
over one byte or fails. -/
def flaky : RStep Nat := fun n _ r n' =>
  (0 < n ∧ r = .interrupted ∧ n' < n) ∨ (r = .ok [9] ∧ n' = 5) ∨ (r = .fail (.other 1) ∧ n' = 0)

/-- Two of its runs. -/
example (t : Target) :
    Runs flaky t (de t .u8) 2 [.interrupted, .ok [9]] (.ok (.u8 9)) 5 ∧
    Runs flaky t (de t .u8) 2 [.interrupted, .fail (.other 1)] (.err .read) 0 := by
  have h1 : flaky 2 1 .interrupted 1 := .inl ⟨by decide, rfl, by decide⟩
  have h2 : flaky 1 1 (.ok [9]) 5 := .inr (.inl ⟨rfl, rfl⟩)
  have h3 : flaky 1 1 (.fail (.other 1)) 0 := .inr (.inr ⟨rfl, rfl⟩)
  constructor
  · exact .readExact (cs := [.interrupted, .ok [9]]) (cs' := []) #v[9]
      (.interrupted (by decide) h1 (.more (by decide) h2 (by simp) (.full _ _))) (.done _ _)
  · exact .readExactErr (.interrupted (by decide) h1 (.fail (by decide) h3))

end Dlhn.Props
