import Verif.Proof.Targets
import Verif.Props.Typed
/-!
# C24-C29: readers, writers, memory

A `Script` is everything a reader does: chunks of any size, `Interrupted`
reports, end of file, failures. `Script.bytes` is the data it delivers before
its first end of file or failure and `Script.ending` is which of the two it was.
A `WScript` is the same for a writer.
-/
namespace Dlhn.Props

open Spec De

/-! ## C24, C25 readers -/

/-- The result of decoding from a reader is a function of the bytes it delivers:
chunk sizes, interruptions and the standard library's buffer sizes do not
matter, nor does whether the bytes end with end of file or a failure. What is
left in the reader is what is left of the bytes. -/
theorem C24_reader (t : Target) (ty : Ty)
    (ht : t.ptr = .w64 ∨ NoText ty) (size : Nat → Nat) (s : Script) :
    (Prog.runScript t size (de t ty) s).map (fun (v, s') => (v, s'.bytes))
      = Prog.run t (de t ty) s.bytes := by
  have h := Prog.runScript_spec t size (strict_on ht) s
  have he : Prog.exec t s.ending (de t ty) s.bytes = Prog.run t (de t ty) s.bytes := by
    rcases Prog.exec_ending t s.ending .eof (strict_on ht) s.bytes with h | ⟨h1, h2⟩
    · exact h
    · rw [h1, Prog.run, h2]; rfl
  rw [he] at h
  cases hr : Prog.run t (de t ty) s.bytes with
  | ok a =>
    rw [hr] at h
    obtain ⟨s', h1, h2, -⟩ := h
    rw [h1, Outcome.map]; simp only [h2]
  | err e => rw [hr] at h; simp only at h; rw [h]; rfl
  | panic q => rw [hr] at h; simp only at h; rw [h]; rfl

/-- The same for two readers delivering the same bytes. -/
theorem C24_chunking (t : Target) (ty : Ty) (ht : t.ptr = .w64 ∨ NoText ty) (size size' : Nat → Nat)
    (s s' : Script) (h : s.bytes = s'.bytes) :
    (Prog.runScript t size (de t ty) s).map (fun (v, r) => (v, r.bytes))
      = (Prog.runScript t size' (de t ty) s').map (fun (v, r) => (v, r.bytes)) := by
  rw [C24_reader t ty ht, C24_reader t ty ht, h]

/-- After a success the reader continues where the value ended, with the same
ending: a following value can be read from it. -/
theorem C24_remaining (t : Target) (ty : Ty)
    (ht : t.ptr = .w64 ∨ NoText ty) (size : Nat → Nat) (s s' : Script)
    (v : Val) (h : Prog.runScript t size (de t ty) s = .ok (v, s')) :
    s'.ending = s.ending ∧ ∃ used, s.bytes = used ++ s'.bytes ∧
      Prog.run t (de t ty) used = .ok (v, []) := by
  have hs := Prog.runScript_spec t size (strict_on ht) s
  cases hr : Prog.exec t s.ending (de t ty) s.bytes with
  | ok a =>
    rw [hr] at hs
    obtain ⟨s'', h1, h2, h3⟩ := hs
    rw [h] at h1
    simp only [Outcome.ok.injEq, Prod.mk.injEq] at h1
    obtain ⟨rfl, rfl⟩ := h1
    obtain ⟨used, hb, hu, -⟩ := Prog.exec_split t _ (strict_on ht) hr
    refine ⟨h3, used, by rw [hb, h2], ?_⟩
    have := hu .eof []
    rwa [List.append_nil] at this
  | err e => rw [hr] at hs; simp [h] at hs
  | panic q => rw [hr] at hs; simp [h] at hs

/-- Four ways to deliver the same five bytes. -/
example : Script.bytes [.data [1, 2, 3, 4, 5]] = [1, 2, 3, 4, 5] ∧
    Script.bytes [.data [1], .interrupted, .data [2, 3], .data [4, 5], .data [], .data [9]]
      = [1, 2, 3, 4, 5] ∧
    Script.bytes [.interrupted, .data [1, 2, 3, 4], .interrupted, .data [5], .fail (.other 13)]
      = [1, 2, 3, 4, 5] := by decide

/-- A value whose bytes arrive before the failure is returned. -/
theorem C25_enough (t : Target) (hm : 4096 ≤ t.memLimit) (ty : Ty)
    (hs : Supported ty) (v : Val) (hv : Has t ty v) (more : List UInt8) (size : Nat → Nat)
    (s : Script) (h : s.bytes = (Ser.toVec v).1 ++ more) :
    ∃ s', Prog.runScript t size (de t ty) s = .ok (v, s') ∧ s'.bytes = more ∧
      s'.ending = s.ending := by
  obtain ⟨enc, h1, h2⟩ := C07_roundtrip t hm ty hs v hv
  rw [h1] at h
  obtain ⟨s', e1, e2, e3, -⟩ := (Prog.recognised (tame_de t ty) (h2 [0]) (by simp)).whole size s more h
  exact ⟨s', by rw [Prog.runScriptAt_fst, e1]; rfl, e2, e3⟩

/-- A failure in the middle of a value is `Err(Read)`. -/
theorem C25_failure (t : Target) (hm : 4096 ≤ t.memLimit) (ty : Ty)
    (hs : Supported ty) (v : Val) (hv : Has t ty v) (size : Nat → Nat) (s : Script)
    (h : s.bytes <+: (Ser.toVec v).1) (hne : s.bytes ≠ (Ser.toVec v).1) :
    Prog.runScript t size (de t ty) s = .err .read := by
  obtain ⟨enc, h1, h2⟩ := C07_roundtrip t hm ty hs v hv
  rw [h1] at h hne
  rw [Prog.runScriptAt_fst, (Prog.recognised (tame_de t ty) (h2 [0]) (by simp)).cut size s h hne]
  rfl

/-- The hypotheses of `C25_failure` are met by a reader that fails after three
bytes of the sample value. -/
example : Script.bytes [.data [2], .interrupted, .data [1, 5], .fail (.other 13)]
      <+: (Ser.toVec sampleVal).1 ∧
    Script.bytes [.data [2], .interrupted, .data [1, 5], .fail (.other 13)]
      ≠ (Ser.toVec sampleVal).1 := by
  have : (Ser.toVec sampleVal).1 =
    [2, 1, 5, 0, 1, 1, 107, 7, 2, 5, 0, 0, 0, 0, 0, 0, 0, 2, 104, 105] := by decide +kernel
  rw [this]
  decide

/-! ## C26, C27, C28 writers -/

/-- Short writes and interruptions do not change what is written. -/
theorem C26_short_writes (v : Val) (s : WScript)
    (h : ∀ ev ∈ s, ev = .interrupted ∨ ∃ n, ev = .accept (n + 1)) :
    (Ser.ser v).runScript s = Ser.toVec v :=
  WProg.runScript_benign _ s h

example : ∀ ev ∈ [WEvent.accept 1, .interrupted, .accept 3, .accept 1],
    ev = .interrupted ∨ ∃ n, ev = .accept (n + 1) := by simp

/-- On every writer: either the outcome is the one of a writer that accepts
everything, or the result is `Err(Write)` and what reached the sink is a strict
prefix. -/
theorem C27_failing_writer (v : Val) (s : WScript) :
    (Ser.ser v).runScript s = Ser.toVec v ∨
    (((Ser.ser v).runScript s).2 = .err .write ∧ ((Ser.ser v).runScript s).1 <+: (Ser.toVec v).1 ∧
      ((Ser.ser v).runScript s).1 ≠ (Ser.toVec v).1) := by
  rcases WProg.runScript_prefix (Ser.good_ser v).maps s with h | ⟨⟨_, h1⟩, h2, h3⟩
  · exact .inl h
  · exact .inr ⟨h1, h2, h3⟩

/-- In particular success means that everything was accepted. -/
theorem C27_ok (v : Val) (s : WScript) (h : ((Ser.ser v).runScript s).2 = .ok ()) :
    (Ser.ser v).runScript s = Ser.toVec v := by
  rcases C27_failing_writer v s with h' | ⟨h', -⟩
  · exact h'
  · rw [h] at h'; cases h'

/-- Both cases occur. -/
example : (Ser.ser (.str "abc")).runScript [.accept 1, .accept 2, .accept 0]
      = ([3, 97, 98], .err .write) ∧
    (Ser.ser (.str "abc")).runScript [.accept 1, .accept 2, .accept 1]
      = ([3, 97, 98, 99], .ok ()) := by decide +kernel

/-- What a failed serialization left behind is never taken for a value of the
same type: reading it is `Err(Read)`. -/
theorem C28_torn (t : Target) (hm : 4096 ≤ t.memLimit) (ty : Ty)
    (hs : Supported ty) (v : Val) (hv : Has t ty v) (s : WScript)
    (hfail : ((Ser.ser v).runScript s).2 ≠ .ok ()) :
    Prog.run t (de t ty) ((Ser.ser v).runScript s).1 = .err .read := by
  obtain ⟨enc, h1, h2⟩ := C07_roundtrip t hm ty hs v hv
  rcases C27_failing_writer v s with h | ⟨-, hp, hne⟩
  · rw [h, h1] at hfail; exact absurd rfl hfail
  · rw [h1] at hp hne
    exact (Prog.recognised (tame_de t ty) (h2 [0]) (by simp)).slice _ hp hne

/-- Torn tail of a stream: values written before the failure are recovered, then
the reader sees `Err(Read)`. -/
theorem C28_torn_stream (t : Target) (hm : 4096 ≤ t.memLimit)
    (items : List (Ty × Val)) (h : ∀ x ∈ items, Supported x.1 ∧ Has t x.1 x.2)
    (ty : Ty) (hs : Supported ty) (v : Val) (hv : Has t ty v) (s : WScript)
    (hfail : ((Ser.ser v).runScript s).2 ≠ .ok ()) :
    ∃ enc, (writeStream (items.map (·.2))).exec = (enc, .ok ()) ∧
      readStream t (items.map (·.1) ++ [ty]) (enc ++ ((Ser.ser v).runScript s).1) = .err .read := by
  induction items with
  | nil =>
    refine ⟨[], rfl, ?_⟩
    simp only [List.map_nil, List.nil_append, readStream]
    rw [C28_torn t hm ty hs v hv s hfail]
  | cons x items ih =>
    obtain ⟨h1, h2⟩ := h x List.mem_cons_self
    obtain ⟨e1, a1, a2⟩ := C07_roundtrip t hm x.1 h1 x.2 h2
    obtain ⟨e2, b1, b2⟩ := ih fun y hy => h y (List.mem_cons_of_mem _ hy)
    refine ⟨e1 ++ e2, ?_, ?_⟩
    · simp only [List.map_cons, writeStream]
      rw [WProg.exec_andThen_ok a1, b1]
    · simp only [List.map_cons, List.cons_append, readStream]
      rw [List.append_assoc, a2]
      simp only
      rw [b2]
      rfl

example : ((Ser.ser sampleVal).runScript [.accept 1, .accept 1, .fail (.other 13)]).2
    ≠ .ok () := by
  have : ((Ser.ser sampleVal).runScript [.accept 1, .accept 1, .fail (.other 13)]).2
    = .err .write := by decide +kernel
  rw [this]; simp

/-! ## C29 memory -/

/-- No single up-front allocation exceeds 4096 bytes, whatever lengths the input
announces, for every type and every input. -/
theorem C29_alloc (t : Target) (ty : Ty) (fin : Ending) (bs : List UInt8) :
    ∀ n ∈ Prog.requests t fin (de t ty) bs, n ≤ 4096 :=
  (allocLe_de t ty).requests t fin bs

/-- A byte buffer announcing 2^40 bytes: one request of 4096 bytes is made. -/
example : Prog.requests ⟨.w64, 10000⟩ .eof (de ⟨.w64, 10000⟩ .byteBuf) (varint 64 (2 ^ 40))
    = [4096] := by decide +kernel

end Dlhn.Props
