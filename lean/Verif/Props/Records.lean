import Verif.Proof.BodyGen
import Verif.Proof.Date
import Verif.Proof.BigNum
import Verif.Props.Typed
/-!
# C66, C67: reading and writing numbers, dates and timestamps on their own

What `Body` and derived structs do with these types rests on the five newtypes and
the five `format` modules; here they are read and written directly.
-/
namespace Dlhn.Props

open Spec

/-- A decoder that streams: it reports truncation as `Err(Read)`, its result
depends only on the bytes it consumes, and it does not depend on how a reader
delivers them. -/
structure StreamsWell {α : Type} (t : Target) (p : Prog DeErr α) : Prop where
  truncated : ∀ bs a, Prog.run t p bs = .ok (a, []) → ∀ pre, pre <+: bs → pre ≠ bs →
    Prog.run t p pre = .err .read
  suffix : ∀ bs a rest, Prog.run t p bs = .ok (a, rest) → ∃ used, bs = used ++ rest ∧
    ∀ rest', Prog.run t p (used ++ rest') = .ok (a, rest')
  reader : ∀ (bufs : Nat → Nat) (s : Script),
    (Prog.runScript t bufs p s).map (fun (a, s') => (a, s'.bytes)) = Prog.run t p s.bytes

theorem streams_of_strict {α : Type} {t : Target} {p : Prog DeErr α} (h : Prog.Strict De.orRead p) :
    StreamsWell t p where
  truncated bs a hx pre hp hne := by
    obtain ⟨used, hb, -, hpre⟩ := Prog.exec_split t _ h hx
    rw [List.append_nil] at hb
    subst hb
    exact hpre .eof pre hp hne
  suffix bs a rest hx := by
    obtain ⟨used, hb, hu, -⟩ := Prog.exec_split t _ h hx
    exact ⟨used, hb, fun rest' => hu .eof rest'⟩
  reader bufs s := by
    have hx := Prog.runScript_spec t bufs h s
    have he : Prog.exec t s.ending p s.bytes = Prog.run t p s.bytes := by
      rcases Prog.exec_ending t s.ending .eof h s.bytes with h | ⟨h1, h2⟩
      · exact h
      · rw [h1, Prog.run, h2]; rfl
    rw [he] at hx
    cases hr : Prog.run t p s.bytes with
    | ok a =>
      rw [hr] at hx
      obtain ⟨s', h1, h2, -⟩ := hx
      rw [h1, Outcome.map]; simp only [h2]
    | err e => rw [hr] at hx; simp only at hx; rw [hx]; rfl
    | panic q => rw [hr] at hx; simp only at hx; rw [hx]; rfl

theorem strict_readBytes (n : Nat) : Prog.Strict De.orRead (De.readBytes n) :=
  ⟨fun _ => rfl, fun _ => trivial⟩

theorem strict_wrap {α β : Type} {p : Prog DeErr α} (h : Prog.Strict De.orRead p) (f : α → β) :
    Prog.Strict De.orRead (p >>= fun a => pure (f a)) := h.bind fun _ => trivial

theorem strict_times {α : Type} {p : Prog DeErr α} (h : Prog.Strict De.orRead p) (n : Nat) :
    Prog.Strict De.orRead (De.times n p) := by
  induction n with
  | zero => trivial
  | succ n ih => exact h.bind fun _ => ih.bind fun _ => trivial

theorem strict_vecU8 (t : Target) : Prog.Strict De.orRead (De.deVecU8 t) :=
  (De.strict_u64.mapErr De.orRead).bind fun _ => strict_times (strict_wrap (strict_readBytes 1) _) _

theorem strict_i64 : Prog.Strict De.orRead De.deI64 := strict_wrap (De.strict_u64.mapErr De.orRead) _
theorem strict_i32 : Prog.Strict De.orRead De.deI32 := strict_wrap (De.strict_u32.mapErr De.orRead) _

/-! ## C66 streaming -/

/-- The big-number newtypes stream, on every target. -/
theorem C66_big (t : Target) : StreamsWell t (BigUint.de t) ∧ StreamsWell t (BigInt.de t) ∧
    StreamsWell t (BigDecimal.de t) := by
  refine ⟨streams_of_strict (strict_wrap (strict_vecU8 t) _),
    streams_of_strict (strict_wrap (strict_vecU8 t) _), streams_of_strict ?_⟩
  refine (strict_vecU8 t).bind fun bs => ?_
  split
  · trivial
  · exact strict_wrap strict_i64 _

/-- So do the `format` modules for big numbers. -/
theorem C66_format_big (t : Target) : StreamsWell t (Format.deBigUint t) ∧
    StreamsWell t (Format.deBigInt t) ∧ StreamsWell t (Format.deBigDecimal t) := by
  refine ⟨streams_of_strict (strict_wrap (strict_vecU8 t) _),
    streams_of_strict (strict_wrap (strict_vecU8 t) _), streams_of_strict ?_⟩
  refine (strict_vecU8 t).bind fun bs => ?_
  show Prog.Strict De.orRead (if _ then _ else _)
  split
  · trivial
  · exact strict_wrap strict_i64 _

/-- So do dates and timestamps, in every build. -/
theorem C66_date (t : Target) (mode : BuildMode) : StreamsWell t (Date.de mode) ∧
    StreamsWell t (Format.deDate mode) ∧ StreamsWell t DateTime.de ∧
    StreamsWell t Format.deDateTime := by
  refine ⟨streams_of_strict ?_, streams_of_strict ?_, streams_of_strict ?_, streams_of_strict ?_⟩
  · refine strict_i32.bind fun y => ?_
    split
    · trivial
    · refine (De.strict_u16.mapErr De.orRead).bind fun o => ?_
      split <;> trivial
  · refine strict_i32.bind fun y => ?_
    split
    · trivial
    · refine (De.strict_u16.mapErr De.orRead).bind fun o => ?_
      split
      · trivial
      · split <;> trivial
  · exact strict_i64.bind fun _ => strict_wrap (De.strict_u32.mapErr De.orRead) _
  · refine strict_i64.bind fun _ => (De.strict_u32.mapErr De.orRead).bind fun _ => ?_
    split
    · trivial
    · split <;> trivial

/-- A timestamp cut in the middle. -/
example (t : Target) : Prog.run t DateTime.de [2] = .err .read :=
  (C66_date t .debug).2.2.1.truncated [2, 5] ⟨1, 5⟩
    (by have h := DateTime.exec_de t .eof ⟨1, 5⟩ []
        have e : dateTimeWire ⟨1, 5⟩ ++ [] = [2, 5] := by decide +kernel
        rw [e] at h; exact h) [2] ⟨[5], rfl⟩ (by simp)

/-! ## C67 no panic -/

/-- Decoding big numbers returns for every input, on every target, whatever
length the input announces. -/
theorem C67_big (t : Target) (s : Script) (bufs : Nat → Nat) :
    (Prog.runScript t bufs (BigUint.de t) s).returns ∧
    (Prog.runScript t bufs (BigInt.de t) s).returns ∧
    (Prog.runScript t bufs (BigDecimal.de t) s).returns ∧
    (Prog.runScript t bufs (Format.deBigUint t) s).returns ∧
    (Prog.runScript t bufs (Format.deBigInt t) s).returns ∧
    (Prog.runScript t bufs (Format.deBigDecimal t) s).returns := by
  have hw : ∀ {α β : Type} {p : Prog DeErr α} (_ : Prog.Total t p) (f : α → β),
      Prog.Total t (p >>= fun a => pure (f a)) := fun h f => h.bind fun _ => trivial
  have hb : Prog.Total t De.deU8 := hw (p := De.readBytes 1) (fun _ => trivial) _
  have ht : ∀ n, Prog.Total t (De.times n De.deU8) := by
    intro n
    induction n with
    | zero => trivial
    | succ n ih => exact hb.bind fun _ => ih.bind fun _ => trivial
  have hv : Prog.Total t (De.deVecU8 t) :=
    ((De.total_u64 t).mapErr De.orRead).bind fun _ => ht _
  have hi : Prog.Total t De.deI64 := hw ((De.total_u64 t).mapErr De.orRead) _
  refine ⟨(hw hv _).runScript bufs s, (hw hv _).runScript bufs s, Prog.Total.runScript ?_ bufs s,
    (hw hv _).runScript bufs s, (hw hv _).runScript bufs s, Prog.Total.runScript ?_ bufs s⟩
  · refine hv.bind fun bs => ?_
    split
    · trivial
    · exact hw hi _
  · refine hv.bind fun bs => ?_
    show Prog.Total t (if _ then _ else _)
    split
    · trivial
    · exact hw hi _

/-- Decoding a `DateTime`, and dates in builds without overflow checks, returns
for every input. -/
theorem C67_date (t : Target) (s : Script) (bufs : Nat → Nat) :
    (Prog.runScript t bufs DateTime.de s).returns ∧
    (Prog.runScript t bufs (Date.de .release) s).returns ∧
    (Prog.runScript t bufs (Format.deDate .release) s).returns := by
  have hw : ∀ {α β : Type} {p : Prog DeErr α} (_ : Prog.Total t p) (f : α → β),
      Prog.Total t (p >>= fun a => pure (f a)) := fun h f => h.bind fun _ => trivial
  have hi : Prog.Total t De.deI64 := hw ((De.total_u64 t).mapErr De.orRead) _
  have hy : Prog.Total t De.deI32 := hw ((De.total_u32 t).mapErr De.orRead) _
  have ho : Prog.Total t De.deU16 := (De.total_u16 t).mapErr De.orRead
  refine ⟨Prog.Total.runScript ?_ bufs s, Prog.Total.runScript ?_ bufs s,
    Prog.Total.runScript ?_ bufs s⟩
  · exact hi.bind fun _ => hw ((De.total_u32 t).mapErr De.orRead) _
  · refine hy.bind fun y => ?_
    simp only [addI32]
    refine ho.bind fun o => ?_
    simp only [addU16]
    trivial
  · refine hy.bind fun y => ?_
    simp only [addI32]
    refine ho.bind fun o => ?_
    simp only [addU16]
    split <;> trivial

/-- The remaining two can panic only as C51 and C53 say. -/
theorem C67_panics (t : Target) (fin : Ending) (bs : List UInt8) (p : PanicKind) :
    (Prog.exec t fin (Date.de .debug) bs = .panic p → p = .overflow) ∧
    (Prog.exec t fin (Format.deDate .debug) bs = .panic p → p = .overflow) ∧
    (Prog.exec t fin Format.deDateTime bs = .panic p → p = .timeRange) := by
  have hw : ∀ {α β : Type} {p : Prog DeErr α} (_ : Prog.Total t p) (f : α → β),
      Prog.Total t (p >>= fun a => pure (f a)) := fun h f => h.bind fun _ => trivial
  have hi : Prog.Total t De.deI64 := hw ((De.total_u64 t).mapErr De.orRead) _
  have hy : Prog.Total t De.deI32 := hw ((De.total_u32 t).mapErr De.orRead) _
  have ho : Prog.Total t De.deU16 := (De.total_u16 t).mapErr De.orRead
  have h1 : Prog.exec t fin (Date.de .debug) bs = .panic p → p = .overflow := by
    intro h
    rw [Date.exec_de_eq] at h
    have := hy.exec fin bs
    cases hx : Prog.exec t fin De.deI32 bs with
    | err e => rw [hx] at h; cases h
    | panic q => rw [hx] at this; exact this.elim
    | ok a =>
      obtain ⟨y, r⟩ := a
      rw [hx, Prog.next_ok] at h
      split at h
      · cases h; rfl
      · have := ho.exec fin r
        cases hz : Prog.exec t fin De.deU16 r with
        | err e => rw [hz] at h; cases h
        | panic q => rw [hz] at this; exact this.elim
        | ok a =>
          obtain ⟨o, r'⟩ := a
          rw [hz, Prog.next_ok] at h
          split at h
          · cases h; rfl
          · cases h
  refine ⟨h1, fun h => ?_, fun h => ?_⟩
  · rw [Format.exec_deDate_eq] at h
    cases hx : Prog.exec t fin (Date.de .debug) bs with
    | err e => rw [hx] at h; cases h
    | panic q =>
      rw [hx] at h
      cases h
      exact h1 hx
    | ok a =>
      rw [hx] at h
      simp only [Prog.next] at h
      split at h <;> cases h
  · rw [Format.exec_deDateTime_eq] at h
    have ht : Prog.Total t DateTime.de :=
      hi.bind fun _ => hw ((De.total_u32 t).mapErr De.orRead) _
    have := ht.exec fin bs
    cases hx : Prog.exec t fin DateTime.de bs with
    | err e => rw [hx] at h; cases h
    | panic q => rw [hx] at this; exact this.elim
    | ok a =>
      rw [hx] at h
      simp only [Prog.next, DateTime.toTime] at h
      split at h
      · cases h
      · cases h
      · rename_i q hq
        cases h
        split at hq
        · cases hq
        · split at hq
          · cases hq; rfl
          · cases hq

end Dlhn.Props
