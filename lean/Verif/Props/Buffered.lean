import Verif.Proof.Buffered
import Verif.Props.Io
import Verif.Props.Header
/-!
# C112, C113: buffered writers and readers

`BufW` is std's `BufWriter` with a buffer of any size `cap` around any writer: `sink` is
what that writer has accepted, `buf` what the `BufWriter` still holds back. `BufR` is
std's `BufReader` around any reader: `buf` is what it has read ahead, `rest` what the
reader behind it still does.
-/
namespace Dlhn.Props

open Spec De

/-! ## C112 `BufWriter` -/

/-- Serializing to a `BufWriter`, whatever it holds already: either the result is the
one on a `Vec` and every byte is accepted or held back, or the result is `Err(Write)`
and a strict prefix is. -/
theorem C112_kept (v : Val) (cap : Nat) (b : BufW) :
    let r := (Ser.ser v).runBuf cap b
    (r.1 = (Ser.toVec v).2 ∧ r.2.sink ++ r.2.buf = b.sink ++ b.buf ++ (Ser.toVec v).1) ∨
    (r.1 = .err .write ∧ r.2.sink ++ r.2.buf <+: b.sink ++ b.buf ++ (Ser.toVec v).1 ∧
      r.2.sink ++ r.2.buf ≠ b.sink ++ b.buf ++ (Ser.toVec v).1) := by
  rcases WProg.runBuf_spec (Ser.good_ser v).maps cap b with h | ⟨⟨_, h1⟩, h2⟩
  · exact .inl h
  · exact .inr ⟨h1, h2⟩

/-- The same for a header; here the writer's own error is returned. -/
theorem C112_header (h : Header) (cap : Nat) (b : BufW) :
    let r := h.serialize.runBuf cap b
    (r.1 = h.toVec.2 ∧ r.2.sink ++ r.2.buf = b.sink ++ b.buf ++ h.toVec.1) ∨
    ((∃ e, r.1 = .err e) ∧ r.2.sink ++ r.2.buf <+: b.sink ++ b.buf ++ h.toVec.1 ∧
      r.2.sink ++ r.2.buf ≠ b.sink ++ b.buf ++ h.toVec.1) :=
  WProg.runBuf_spec (Header.maps_serialize h) cap b

/-- A flush that succeeds leaves nothing behind; one that fails loses nothing and has
something left. -/
theorem C112_flush (b : BufW) :
    (b.flushBuf.1 = none → b.flushBuf.2.sink = b.sink ++ b.buf ∧ b.flushBuf.2.buf = []) ∧
    (b.flushBuf.1 ≠ none →
      b.flushBuf.2.sink ++ b.flushBuf.2.buf = b.sink ++ b.buf ∧ b.flushBuf.2.buf ≠ []) := by
  have h := b.flushBuf_spec
  rcases hr : b.flushBuf with ⟨_ | e, b'⟩ <;> rw [hr] at h <;> simp only at h ⊢
  · exact ⟨fun _ => h, fun hx => absurd rfl hx⟩
  · exact ⟨fun hx => by simp at hx, fun _ => ⟨h.1, h.2.1⟩⟩

/-- `Ok` from the serializer and `Ok` from a flush together mean that the writer has
exactly the encoding. -/
theorem C112_delivered (v : Val) (cap : Nat) (s : WScript)
    (h1 : ((Ser.ser v).runBuf cap (.new s)).1 = .ok ())
    (h2 : ((Ser.ser v).runBuf cap (.new s)).2.flushBuf.1 = none) :
    ((Ser.ser v).runBuf cap (.new s)).2.flushBuf.2.sink = (Ser.toVec v).1 ∧
      (Ser.toVec v).2 = .ok () := by
  have hk := C112_kept v cap (.new s)
  simp only [BufW.new, List.append_nil, List.nil_append] at hk h1 h2 ⊢
  rw [((C112_flush _).1 h2).1]
  rcases hk with ⟨k1, k2⟩ | ⟨k1, -⟩
  · exact ⟨k2, by rw [← k1, h1]⟩
  · rw [h1] at k1; cases k1

/-- At every moment, after a failure as well, and after any number of further flushes,
the last of which may be that of `drop`, the writer has a prefix of the encoding. -/
theorem C112_prefix (v : Val) (cap : Nat) (s : WScript) (n : Nat) :
    (((Ser.ser v).runBuf cap (.new s)).2.flushes n).sink <+: (Ser.toVec v).1 := by
  have ha := BufW.flushes_all n ((Ser.ser v).runBuf cap (.new s)).2
  have hk := C112_kept v cap (.new s)
  simp only [BufW.new, List.append_nil, List.nil_append] at hk ha ⊢
  refine (List.prefix_append _ _).trans (l₂ := BufW.all _) ?_
  rw [ha, BufW.all]
  rcases hk with ⟨-, h⟩ | ⟨-, h, -⟩
  · rw [h]; exact List.prefix_refl _
  · exact h

/-- An encoding shorter than the buffer never reaches the writer before a flush: the
result is the one on a `Vec` whatever the writer does. -/
theorem C112_silent (v : Val) (cap : Nat) (s : WScript) (h : (Ser.toVec v).1.length < cap) :
    (Ser.ser v).runBuf cap (.new s) = ((Ser.toVec v).2, ⟨(Ser.toVec v).1, s, []⟩) := by
  rw [WProg.runBuf_fits _ cap _ (by simpa [BufW.new, Ser.toVec] using h)]
  rfl

/-- So on a writer that fails, serializing returns `Ok`, and dropping the `BufWriter`,
which ignores the error of its flush, loses the whole value. -/
theorem C112_lost (v : Val) (cap : Nat) (e : IoErr) (hok : (Ser.toVec v).2 = .ok ())
    (h0 : (Ser.toVec v).1 ≠ []) (h : (Ser.toVec v).1.length < cap) :
    ((Ser.ser v).runBuf cap (.new [.fail e])).1 = .ok () ∧
    ((Ser.ser v).runBuf cap (.new [.fail e])).2.flushBuf.1 = some e ∧
    ((Ser.ser v).runBuf cap (.new [.fail e])).2.flushBuf.2.sink = [] := by
  rw [C112_silent v cap _ h]
  simp [hok, BufW.flushBuf, WScript.writeAll, h0]

/-- The `BufWriter` never holds more than its buffer. -/
theorem C112_bounded (v : Val) (cap : Nat) (b : BufW) (h : b.buf.length ≤ cap) :
    ((Ser.ser v).runBuf cap b).2.buf.length ≤ cap :=
  WProg.runBuf_bound _ cap b h

/-- On a writer with nothing but short writes and interruptions, serializing returns what
it returns on a `Vec`, the flush succeeds, and everything arrives. -/
theorem C112_benign (v : Val) (cap : Nat) (s : WScript)
    (h : ∀ ev ∈ s, ev = .interrupted ∨ ∃ n, ev = .accept (n + 1)) :
    ((Ser.ser v).runBuf cap (.new s)).1 = (Ser.toVec v).2 ∧
    ((Ser.ser v).runBuf cap (.new s)).2.flushBuf.1 = none ∧
    ((Ser.toVec v).2 = .ok () →
      ((Ser.ser v).runBuf cap (.new s)).2.flushBuf.2.sink = (Ser.toVec v).1) := by
  obtain ⟨h1, h2⟩ := WProg.runBuf_benign (Ser.ser v) cap (.new s) h
  obtain ⟨h3, -⟩ := BufW.flushBuf_benign _ h2
  exact ⟨h1, h3, fun hok => (C112_delivered v cap s (by rw [h1]; exact hok) h3).1⟩

/-- A buffer of two bytes on a writer that takes one byte, is interrupted, and then fails:
serializing "abc" stops with `Err(Write)`; the writer got one byte. -/
example : (Ser.ser (.str "abc")).runBuf 2 (.new [.accept 1, .interrupted, .fail (.other 5)])
    = (.err .write, ⟨[], [], [3]⟩) := by decide +kernel

/-- The hypotheses of `C112_delivered`, `C112_silent` and `C112_lost` are met. -/
example : ((Ser.ser (.str "abc")).runBuf 8 (.new [.accept 1, .interrupted])).1 = .ok () ∧
    ((Ser.ser (.str "abc")).runBuf 8 (.new [.accept 1, .interrupted])).2.flushBuf
      = (none, ⟨[], [], [3, 97, 98, 99]⟩) ∧
    Ser.toVec (.str "abc") = ([3, 97, 98, 99], .ok ()) := by decide +kernel

/-! ## C113 `BufReader` -/

/-- Decoding through a `BufReader` of any size, whatever it has read ahead, around any
reader gives the result of decoding the bytes it still delivers; what is left is
what is left of those bytes. -/
theorem C113_reader (t : Target) (ty : Ty)
    (ht : t.ptr = .w64 ∨ NoText ty) (cap : Nat) (size : Nat → Nat)
    (b : BufR) :
    (Prog.runBuf t cap size (de t ty) b).map (fun (v, b') => (v, b'.buf ++ b'.rest.bytes))
      = Prog.run t (de t ty) (b.buf ++ b.rest.bytes) := by
  have h := Prog.runBuf_spec t cap size (strict_on ht) b
  have he : Prog.exec t b.ending (de t ty) b.bytes = Prog.run t (de t ty) b.bytes := by
    rcases Prog.exec_ending t b.ending .eof (strict_on ht) b.bytes with h | ⟨h1, h2⟩
    · exact h
    · rw [h1, Prog.run, h2]; rfl
  rw [he] at h
  show _ = Prog.run t (de t ty) b.bytes
  cases hr : Prog.run t (de t ty) b.bytes with
  | ok a =>
    rw [hr] at h
    obtain ⟨b', h1, h2, -⟩ := h
    rw [h1, Outcome.map]; exact congrArg (fun r => Outcome.ok (a.1, r)) h2
  | err e => rw [hr] at h; simp only at h; rw [h]; rfl
  | panic q => rw [hr] at h; simp only at h; rw [h]; rfl

/-- In particular putting a `BufReader` in front of a reader changes no result. -/
theorem C113_same (t : Target) (ty : Ty)
    (ht : t.ptr = .w64 ∨ NoText ty) (cap : Nat) (size size' : Nat → Nat)
    (s : Script) :
    (Prog.runBuf t cap size (de t ty) (.new s)).map (fun (v, b') => (v, b'.buf ++ b'.rest.bytes))
      = (Prog.runScript t size' (de t ty) s).map (fun (v, s') => (v, s'.bytes)) := by
  rw [C113_reader t ty ht, C24_reader t ty ht]; rfl

/-- Values written one after the other are read back one after the other through the same
`BufReader`. -/
theorem C113_next (t : Target) (hm : 4096 ≤ t.memLimit) (ty : Ty)
   
    (ht : t.ptr = .w64 ∨ NoText ty) (hs : Supported ty) (v : Val) (hv : Has t ty v) (cap : Nat) (size : Nat → Nat) (b : BufR)
    (rest : List UInt8) (hb : b.buf ++ b.rest.bytes = (Ser.toVec v).1 ++ rest) :
    ∃ b', Prog.runBuf t cap size (de t ty) b = .ok (v, b') ∧ b'.buf ++ b'.rest.bytes = rest := by
  obtain ⟨enc, h1, h2⟩ := C07_roundtrip t hm ty hs v hv
  have h := C113_reader t ty ht cap size b
  rw [hb, h1, h2 rest] at h
  cases hr : Prog.runBuf t cap size (de t ty) b with
  | ok a =>
    rw [hr, Outcome.map] at h
    simp only [Outcome.ok.injEq, Prod.mk.injEq] at h
    exact ⟨a.2, by rw [← h.1], h.2⟩
  | err e => rw [hr] at h; cases h
  | panic q => rw [hr] at h; cases h

/-- But what was read ahead is gone from the reader behind: after decoding a `u8` through a
`BufReader` from a reader that has all its data at hand, no more than the buffer
holds, nothing is left in that reader for anyone else. -/
theorem C113_ahead (t : Target) (cap : Nat) (size : Nat → Nat) (x : UInt8) (rest : List UInt8)
    (h2 : 2 ≤ cap) (hc : rest.length + 1 ≤ cap) :
    Prog.runBuf t cap size (de t .u8) (.new [.data (x :: rest)])
      = .ok (.u8 x, ⟨rest, []⟩) := by
  have hr : BufR.read cap 1 ⟨[], [.data (x :: rest)]⟩ = (.ok [x], ⟨rest, []⟩) := by
    rw [BufR.read]
    simp only [if_true]
    rw [if_neg (by omega), Script.read, if_pos (by simpa using hc)]
    rfl
  have he : BufR.readExact cap 1 [] ⟨[], [.data (x :: rest)]⟩ = .ok [x] ⟨rest, []⟩ := by
    rw [BufR.readExact]
    simp only [dif_neg (by decide : ¬ (1 = 0))]
    rw [dif_neg (by simp)]
    split
    · rename_i bs b' h
      rw [hr] at h
      cases h
      rw [if_neg (by simp), BufR.readExact]
      simp
    · rename_i b' h; rw [hr] at h; cases h
    · rename_i e b' h; rw [hr] at h; cases h
  show Prog.runBuf t cap size (.readExact 1 _ _) ⟨[], [.data (x :: rest)]⟩ = _
  rw [Prog.runBuf, he]
  rfl

/-- A `u8` read directly from a reader. -/
private theorem runScript_u8 (t : Target) (x : UInt8) (rest : List UInt8)
    (s : Script) (hs : s.bytes = x :: rest) :
    ∃ s', Prog.runScript t (fun _ => 0) (de t .u8) s = .ok (.u8 x, s') ∧ s'.bytes = rest := by
  have h := C24_reader t .u8 (.inr trivial) (fun _ => 0) s
  have h0 : Prog.run t (de t .u8) (x :: rest) = .ok (.u8 x, rest) := rfl
  rw [hs, h0] at h
  cases hr : Prog.runScript t (fun _ => 0) (de t .u8) s with
  | ok a =>
    rw [hr, Outcome.map] at h
    simp only [Outcome.ok.injEq, Prod.mk.injEq] at h
    exact ⟨a.2, by rw [← h.1], h.2⟩
  | err e => rw [hr] at h; cases h
  | panic q => rw [hr] at h; cases h

/-- Two values in one reader: the first is decoded through a `BufReader`, the second
directly from the reader after that `BufReader` is gone. Without the `BufReader` both are
read; with it the second is `Err(Read)`. -/
theorem C113_lost : ∃ (s : Script) (t : Target), t.ptr = .w64 ∧ 4096 ≤ t.memLimit ∧
    s.bytes = (Ser.toVec (.u8 7)).1 ++ (Ser.toVec (.u8 9)).1 ∧
    (∃ s', Prog.runScript t (fun _ => 0) (de t .u8) s = .ok (.u8 7, s') ∧
      (Prog.runScript t (fun _ => 0) (de t .u8) s').map (·.1) = .ok (.u8 9)) ∧
    (∃ b', Prog.runBuf t 8192 (fun _ => 0) (de t .u8) (.new s) = .ok (.u8 7, b') ∧
      Prog.runScript t (fun _ => 0) (de t .u8) b'.rest = .err .read) := by
  refine ⟨[.data [7, 9]], ⟨.w64, 2 ^ 20⟩, rfl, by decide, by decide +kernel, ?_, ?_⟩
  · obtain ⟨s', h1, h2⟩ := runScript_u8 ⟨.w64, 2 ^ 20⟩ 7 [9] [.data [7, 9]] rfl
    obtain ⟨s'', h3, -⟩ := runScript_u8 ⟨.w64, 2 ^ 20⟩ 9 [] s' h2
    exact ⟨s', h1, by rw [h3]; rfl⟩
  · refine ⟨_, C113_ahead _ 8192 _ 7 [9] (by decide) (by decide), ?_⟩
    have h := C24_reader ⟨.w64, 2 ^ 20⟩ .u8 (.inl rfl) (fun _ => 0) []
    have h0 : Prog.run ⟨.w64, 2 ^ 20⟩ (de ⟨.w64, 2 ^ 20⟩ .u8) (Script.bytes []) = .err .read := rfl
    rw [h0] at h
    cases hr : Prog.runScript ⟨.w64, 2 ^ 20⟩ (fun _ => 0) (de ⟨.w64, 2 ^ 20⟩ .u8) [] with
    | ok a => rw [hr] at h; cases h
    | err e => rw [hr] at h; simpa [Outcome.map] using h
    | panic q => rw [hr] at h; cases h

/-- A value split over three reads with an interruption, through a buffer of three bytes. -/
example : Prog.run ⟨.w64, 4096⟩ (de ⟨.w64, 4096⟩ .string)
      (([] : List UInt8) ++ Script.bytes [.data [3, 97], .interrupted, .data [98, 99, 5]])
    = .ok (.str "abc", [5]) := by rfl

end Dlhn.Props
