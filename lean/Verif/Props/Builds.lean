import Verif.Proof.Builds
import Verif.Props.Body
import Verif.Props.Date
/-!
# C132: memory, stack, layout and overflow checks decide whether there is a result, not which
-/
namespace Dlhn.Props

open Spec

/-- Each reason is one. -/
theorem outOfBounds_overflow : OutOfBounds .overflow := .inl rfl
theorem outOfBounds_capacity : OutOfBounds .capacityOverflow := .inr (.inl rfl)
theorem outOfBounds_alloc : OutOfBounds .allocFailure := .inr (.inr (.inl rfl))
theorem outOfBounds_stack : OutOfBounds .stackOverflow := .inr (.inr (.inr rfl))

/-- The side conditions of the lemmas about programs. -/
local macro "sides" : tactic => `(tactic|
  first
    | exact fun _ => rfl | rfl | exact fun _ => Nat.le_refl _
    | exact fun _ => Nat.mul_le_mul_left _ ‹_› | exact .inr ⟨rfl, rfl⟩ | exact .inl rfl
    | exact .inr outOfBounds_stack | exact .inr rfl
    | exact Or.imp id (fun h => ⟨h, outOfBounds_overflow⟩) ‹_› | assumption)

/-! ## Reading -/

/-- Whatever a `Deserialize` implementation does with little memory it does with more; only an
allocation refused is lost. -/
theorem C132_impl (w : PtrWidth) (m m' : Nat) (hm : m ≤ m') {α : Type} (i : Impl α) :
    DoesOrPanics (· = .allocFailure) ⟨w, m⟩ ⟨w, m'⟩ (i.run ⟨w, m⟩) (i.run ⟨w, m'⟩) := by
  apply Guards.does (R := Eq)
  · exact allocate_memory rfl rfl hm
  · apply Guards.impl <;> sides

/-- The same for a type. -/
theorem C132_typed (w : PtrWidth) (m m' : Nat) (hm : m ≤ m') (ty : Ty) :
    DoesOrPanics (· = .allocFailure) ⟨w, m⟩ ⟨w, m'⟩ (De.de ⟨w, m⟩ ty) (De.de ⟨w, m'⟩ ty) := by
  apply Guards.does (R := Eq)
  · exact allocate_memory rfl rfl hm
  · apply Guards.de <;> sides

/-- The same for types that refer to themselves, also with more stack. -/
theorem C132_recursive (w : PtrWidth) (m m' : Nat) (hm : m ≤ m') (defs : Rec.Defs)
    (stack stack' : Nat) (hs : stack ≤ stack') (T : Rec.RecTy) :
    DoesOrPanics OutOfBounds ⟨w, m⟩ ⟨w, m'⟩
      (Rec.deTy ⟨w, m⟩ defs stack T) (Rec.deTy ⟨w, m'⟩ defs stack' T) := by
  apply Guards.does (R := Eq)
  · exact allocate_memory outOfBounds_alloc rfl hm
  · apply Guards.recTy <;> sides

/-- Reading a header: with more memory, more stack and smaller headers in memory. -/
theorem C132_header (w : PtrWidth) (m m' : Nat) (hm : m ≤ m') (size size' : Nat)
    (hz : size' ≤ size) (stack stack' : Nat) (hs : stack ≤ stack') :
    DoesOrPanics OutOfBounds ⟨w, m⟩ ⟨w, m'⟩
      (Header.deserialize size stack) (Header.deserialize size' stack') := by
  apply Guards.does (R := fun n n' => n' ≤ n)
  · exact allocate_layout outOfBounds_alloc outOfBounds_capacity rfl hm
  · apply Guards.header <;> sides

/-- Reading a dynamic value: a machine with more memory and stack, a compiler that lays
`Body` out smaller, and a build without overflow checks do what the others do, and more. -/
theorem C132_body (w : PtrWidth) (m m' : Nat) (hm : m ≤ m') (mode mode' : BuildMode)
    (hb : mode = mode' ∨ mode' = .release) (size size' : Nat) (hz : size' ≤ size)
    (stack stack' : Nat) (hs : stack ≤ stack') (h : Header) :
    DoesOrPanics OutOfBounds ⟨w, m⟩ ⟨w, m'⟩
      (Body.deOn ⟨w, m⟩ mode size stack h) (Body.deOn ⟨w, m'⟩ mode' size' stack' h) := by
  apply Guards.does (R := fun n n' => n' ≤ n)
  · exact allocate_layout outOfBounds_alloc outOfBounds_capacity rfl hm
  · apply Guards.bodyDeOn <;> sides

/-- Overflow checks alone: reading a dynamic value, the only difference is the overflow. -/
theorem C132_body_checks (t : Target) (size : Nat) (h : Header) :
    DoesOrPanics (· = .overflow) t t (Body.de t .debug size h) (Body.de t .release size h) := by
  apply Guards.does (R := Eq)
  · exact allocate_same t
  · apply Guards.bodyDe <;> sides

/-- Memory alone: the only difference is the allocation refused. -/
theorem C132_body_memory (w : PtrWidth) (m m' : Nat) (hm : m ≤ m') (mode : BuildMode)
    (size : Nat) (h : Header) :
    DoesOrPanics (· = .allocFailure) ⟨w, m⟩ ⟨w, m'⟩
      (Body.de ⟨w, m⟩ mode size h) (Body.de ⟨w, m'⟩ mode size h) := by
  apply Guards.does (R := Eq)
  · exact allocate_memory rfl rfl hm
  · apply Guards.bodyDe <;> sides

/-- Layout alone: the only difference is a request that is refused. -/
theorem C132_body_layout (t : Target) (mode : BuildMode) (size size' : Nat) (hz : size' ≤ size)
    (h : Header) :
    DoesOrPanics OutOfMemory t t (Body.de t mode size h) (Body.de t mode size' h) := by
  apply Guards.does (R := fun n n' => n' ≤ n)
  · exact allocate_layout (.inr rfl) (.inl rfl) rfl (Nat.le_refl _)
  · apply Guards.bodyDe <;> sides

/-- Reading a value of a derived or standard type, with and without overflow checks. -/
theorem C132_derived_checks (t : Target) (env : Derive.Env) (T : RTy) :
    DoesOrPanics (· = .overflow) t t (Derive.deTy t .debug env T) (Derive.deTy t .release env T) := by
  apply Guards.does (R := Eq)
  · exact allocate_same t
  · apply Guards.deTy <;> sides

/-- With more memory. -/
theorem C132_derived_memory (w : PtrWidth) (m m' : Nat) (hm : m ≤ m') (mode : BuildMode)
    (env : Derive.Env) (T : RTy) :
    DoesOrPanics (· = .allocFailure) ⟨w, m⟩ ⟨w, m'⟩
      (Derive.deTy ⟨w, m⟩ mode env T) (Derive.deTy ⟨w, m'⟩ mode env T) := by
  apply Guards.does (R := Eq)
  · exact allocate_memory rfl rfl hm
  · apply Guards.deTy <;> sides

/-- So a result, value or error, is kept on the better machine: same calls, same result,
same state of the reader. -/
theorem C132_kept {ε α : Type} {Q : PanicKind → Prop} {t t' : Target} {p p' : Prog ε α}
    (h : DoesOrPanics Q t t' p p') {σ : Type} (step : RStep σ) (s s' : σ) (cs : List ReadRes)
    (o : Outcome ε α) (hr : Runs step t p s cs o s') (ho : o.returns) : Runs step t' p' s cs o s' := by
  rcases (h σ step s cs o s').1 hr with ⟨q, _, rfl⟩ | h
  · exact ho.elim
  · exact h

/-- And two machines never return different results for the same answers of the reader. -/
theorem C132_agree {ε α : Type} {Q : PanicKind → Prop} {t t' : Target} {p p' : Prog ε α}
    (h : DoesOrPanics Q t t' p p') {σ : Type} (step : RStep σ) (s s' : σ) (cs : List ReadRes)
    (o : Outcome ε α) (hr : Runs step t' p' s cs o s') :
    Runs step t p s cs o s' ∨ ∃ q cs₁ s₁, Q q ∧ cs₁ <+: cs ∧ Runs step t p s cs₁ (.panic q) s₁ :=
  (h σ step s cs o s').2 hr

/-- The same for a slice. -/
theorem C132_slice (w : PtrWidth) (m m' : Nat) (hm : m ≤ m') (mode mode' : BuildMode)
    (hb : mode = mode' ∨ mode' = .release) (size size' : Nat) (hz : size' ≤ size)
    (stack stack' : Nat) (hs : stack ≤ stack') (h : Header) (bs : List UInt8) :
    (∃ q, OutOfBounds q ∧ Prog.run ⟨w, m⟩ (Body.deOn ⟨w, m⟩ mode size stack h) bs = .panic q) ∨
      Prog.run ⟨w, m⟩ (Body.deOn ⟨w, m⟩ mode size stack h) bs =
        Prog.run ⟨w, m'⟩ (Body.deOn ⟨w, m'⟩ mode' size' stack' h) bs := by
  apply Guards.exec (R := fun n n' => n' ≤ n)
  · exact allocate_layout outOfBounds_alloc outOfBounds_capacity rfl hm
  · apply Guards.bodyDeOn <;> sides

theorem C132_slice_derived (w : PtrWidth) (m m' : Nat) (hm : m ≤ m') (mode mode' : BuildMode)
    (hb : mode = mode' ∨ mode' = .release) (env : Derive.Env) (T : RTy) (bs : List UInt8) :
    (∃ q, OutOfBounds q ∧ Prog.run ⟨w, m⟩ (Derive.deTy ⟨w, m⟩ mode env T) bs = .panic q) ∨
      Prog.run ⟨w, m⟩ (Derive.deTy ⟨w, m⟩ mode env T) bs =
        Prog.run ⟨w, m'⟩ (Derive.deTy ⟨w, m'⟩ mode' env T) bs := by
  apply Guards.exec (R := Eq)
  · exact allocate_memory outOfBounds_alloc rfl hm
  · apply Guards.deTy <;> sides

/-! ## Writing -/

/-- Writing a dynamic value with and without overflow checks: the same writes up to an
overflow. -/
theorem C132_writes_checks (b : Body) :
    WritesOrPanics (· = .overflow) (b.ser .debug) (b.ser .release) := by
  apply WGuards.writes
  apply Laxer.bodySer <;> sides

/-- And with more stack. -/
theorem C132_writes_body (mode mode' : BuildMode) (hb : mode = mode' ∨ mode' = .release)
    (stack stack' : Nat) (hs : stack ≤ stack') (b : Body) :
    WritesOrPanics OutOfBounds (b.serOn mode stack) (b.serOn mode' stack') := by
  apply WGuards.writes
  apply WGuards.bodySerOn <;> sides

/-- Writing a header with more stack. -/
theorem C132_writes_header (stack stack' : Nat) (hs : stack ≤ stack') (h : Header) :
    WritesOrPanics (· = .stackOverflow) (h.serializeOn stack) (h.serializeOn stack') := by
  apply WGuards.writes
  apply WGuards.serializeOn <;> sides

/-- Writing a value of a derived or standard type. -/
theorem C132_writes_derived (T : RTy) (v : Derive.Carrier T) :
    WritesOrPanics (· = .overflow) (Derive.ser .debug T v) (Derive.ser .release T v) := by
  apply WGuards.writes
  apply Laxer.derivedSer <;> sides

/-- Into a vector: what a build with overflow checks has written when it returns is what a
build without them writes; when it overflows, it has written the beginning of that. -/
theorem C132_writes_vec (b : Body) :
    ((Body.toVec .debug b).2 = .panic .overflow ∧
      (Body.toVec .debug b).1 <+: (Body.toVec .release b).1) ∨
    Body.toVec .debug b = Body.toVec .release b := by
  have h : WGuards (· = .overflow) (b.ser .debug) (b.ser .release) := by
    apply Laxer.bodySer <;> sides
  exact h.exec.imp (fun ⟨_, hq, h, hp⟩ => ⟨hq ▸ h, hp⟩) id

/-- Converting a `bigdecimal::BigDecimal`. -/
theorem C132_decimal (v : Num.Decimal) :
    BigDecimal.ofNum .debug v = .panic .overflow ∨
      BigDecimal.ofNum .debug v = BigDecimal.ofNum .release v := by
  unfold BigDecimal.ofNum
  split
  · exact .inr rfl
  · rcases Laxer.normalized (Q := fun _ => True) (mode := .debug) (mode' := .release)
      (.inr ⟨rfl, trivial⟩) v with ⟨h, -⟩ | h
    · rw [h]; exact .inl rfl
    · rw [h]; exact .inr rfl

/-- So builds can be mixed: what either build writes of a value whose dates fit, the other
reads back. -/
theorem C132_interchange (t : Target) (hm : 4096 ≤ t.memLimit) (size : Nat)
    (h : Header) (b : Body) (hv : Body.validate h b = true) (he : Exists t b)
    (hc : CleanDecimals b) (hd : DatesFit .debug b) (hf : VectorsFit t size b)
    (writer reader : BuildMode) :
    ∃ enc, Body.toVec writer b = (enc, .ok ()) ∧
      ∀ rest, Prog.run t (Body.de t reader size h) (enc ++ rest) = .ok (b, rest) := by
  obtain ⟨enc, hw, hr⟩ := C35_roundtrip t hm .debug size h b hv he hc hd hf
  refine ⟨enc, ?_, fun rest => ?_⟩
  · cases writer with
    | debug => exact hw
    | release =>
      rcases C132_writes_vec b with ⟨h, _⟩ | h
      · rw [hw] at h; cases h
      · exact h ▸ hw
  · cases reader with
    | debug => exact hr rest
    | release =>
      rcases (Guards.bodyDe (Q := (· = .overflow)) (R := Eq) (mode := .debug)
        (mode' := .release) (size := size) (fun _ => rfl) rfl (.inr ⟨rfl, rfl⟩)
        (fun _ => rfl) h).exec (allocate_same t) .eof (enc ++ rest) with ⟨q, _, hq⟩ | hq
      · have := hr rest; rw [Prog.run, hq] at this; cases this
      · have := hr rest; rw [Prog.run, hq] at this; exact this

example (writer reader : BuildMode) : ∃ enc, Body.toVec writer sampleBody = (enc, .ok ()) ∧
    ∀ rest, Prog.run ⟨.w64, 4096⟩ (Body.de ⟨.w64, 4096⟩ reader 56 sampleShape) (enc ++ rest)
      = .ok (sampleBody, rest) :=
  have ⟨h1, h2, h3, h4, h5⟩ := sampleBody_meets ⟨.w64, 4096⟩ .debug 56 (by decide)
  C132_interchange _ (by decide) _ _ _ h1 h2 h3 h4 h5 writer reader

/-! ## The differences exist -/

/-- A date on which a build with checks panics and one without reads on. -/
example (env : Derive.Env) :
    Prog.run ⟨.w64, 4096⟩ (Derive.deTy ⟨.w64, 4096⟩ .debug env .date) (wireDate 2147483647 0)
      = .panic .overflow ∧
    Prog.run ⟨.w64, 4096⟩ (Derive.deTy ⟨.w64, 4096⟩ .release env .date) (wireDate 2147483647 0)
      = .ok (⟨-2147481649, 1⟩, []) := by
  have h := C51_decode ⟨.w64, 4096⟩
  have e : ∀ mode, Derive.deTy ⟨.w64, 4096⟩ mode env .date = Date.de mode := fun _ => by
    simp only [Derive.deTy]
  rw [e, e]
  exact ⟨by simpa using h .debug 2147483647 0 [], by simpa using h .release 2147483647 0 []⟩

/-- A year on which a build with checks panics before it writes. -/
example : (Date.ser .debug ⟨-2147483648, 1⟩).exec = ([], .panic .overflow) ∧
    (Date.ser .release ⟨-2147483648, 1⟩).exec.2 = .ok () := by decide

/-- Day 0: the year is written, then the build with checks panics. -/
example : (Date.ser .debug ⟨2000, 0⟩).exec = ([0], .panic .overflow) ∧
    (Date.ser .release ⟨2000, 0⟩).exec.1.take 1 = [0] := by decide

/-- One element: 56 bytes are too much for one machine, not for the other. -/
example : Prog.run ⟨.w64, 48⟩ (Body.de ⟨.w64, 48⟩ .release 56 (.array .unit)) [1]
      = .panic .allocFailure ∧
    Prog.run ⟨.w64, 64⟩ (Body.de ⟨.w64, 64⟩ .release 56 (.array .unit)) [1]
      = .ok (.array [.unit], []) ∧
    Prog.run ⟨.w64, 48⟩ (Body.de ⟨.w64, 48⟩ .release 40 (.array .unit)) [1]
      = .ok (.array [.unit], []) := ⟨rfl, rfl, rfl⟩

/-- An optional of an optional needs one more frame. -/
example : Prog.run ⟨.w64, 64⟩ (Header.deserialize 32 2) [1, 1, 0] = .panic .stackOverflow ∧
    Prog.run ⟨.w64, 64⟩ (Header.deserialize 32 3) [1, 1, 0]
      = .ok (.optional (.optional .unit), []) := ⟨rfl, rfl⟩

end Dlhn.Props
