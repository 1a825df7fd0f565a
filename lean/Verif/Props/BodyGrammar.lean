import Verif.Proof.BodyGrammar
import Verif.Props.Body
/-!
# C122: exactly which bytes are read as which body

`Spec.BodyDenotes` (Spec/BodyGrammar.lean) is the grammar. On 64-bit targets.
-/
namespace Dlhn.Props

open Spec

/-- Deserializing under a header yields a body and leaves a rest exactly if what it took stands
for the body, and there is memory for all vectors. -/
theorem C122_accepts (t : Target) (ht : t.ptr = .w64) (hm : 4096 ≤ t.memLimit) (mode : BuildMode)
    (size : Nat) (h : Header) (bs rest : List UInt8) (b : Body) :
    Prog.run t (Body.de t mode size h) bs = .ok (b, rest) ↔
      ∃ used, bs = used ++ rest ∧ BodyDenotes mode (Room t size) h b used :=
  Body.parses_body ht hm mode size h .eof bs b rest

/-- Without arrays, with memory for the tuples and without dates (or without overflow checks)
everything else is an error. -/
theorem C122_rejects (t : Target) (ht : t.ptr = .w64) (hm : 4096 ≤ t.memLimit) (mode : BuildMode)
    (size : Nat) (h : Header) (ha : ∀ h', .array h' ∉ headerParts h)
    (hr : ∀ hs, .tuple hs ∈ headerParts h → Room t size hs.length)
    (hd : .date ∈ headerParts h → mode = .release) (bs : List UInt8) :
    (∃ e, Prog.run t (Body.de t mode size h) bs = .err e) ↔
      ∀ used rest b, bs = used ++ rest → ¬ BodyDenotes mode (Room t size) h b used := by
  constructor
  · rintro ⟨e, he⟩ used rest b rfl hb
    rw [(C122_accepts t ht hm mode size h _ rest b).mpr ⟨used, rfl, hb⟩] at he
    cases he
  · intro hn
    have hx := C62_no_panic t hm mode size h ha
      (fun hs hh => (Body.room_iff t size _).mpr (hr hs hh)) hd bs
    cases hy : Prog.run t (Body.de t mode size h) bs with
    | ok br =>
      obtain ⟨used, hu, hb⟩ := (C122_accepts t ht hm mode size h bs br.2 br.1).mp hy
      exact (hn used br.2 br.1 hu hb).elim
    | err e => exact ⟨e, rfl⟩
    | panic p => rw [hy] at hx; exact hx.elim

/-- What is written is in the grammar. -/
theorem C122_written (t : Target) (ht : t.ptr = .w64) (hm : 4096 ≤ t.memLimit) (mode : BuildMode)
    (size : Nat) (h : Header) (b : Body) (hv : Body.validate h b = true) (he : Exists t b)
    (hc : CleanDecimals b) (hd : DatesFit mode b) (hf : VectorsFit t size b) :
    ∃ enc, Body.toVec mode b = (enc, .ok ()) ∧ BodyDenotes mode (Room t size) h b enc := by
  obtain ⟨enc, h1, h2⟩ := C35_roundtrip t hm mode size h b hv he hc hd hf
  obtain ⟨used, hu, hb⟩ := (C122_accepts t ht hm mode size h _ _ b).mp (h2 [])
  simp only [List.append_nil] at hu
  exact ⟨enc, h1, hu ▸ hb⟩

/-- At most one beginning of a byte string stands for a body, and it stands for one. -/
theorem C122_unambiguous (t : Target) (ht : t.ptr = .w64) (hm : 4096 ≤ t.memLimit)
    (mode : BuildMode) (size : Nat) (h : Header) (u u' r r' : List UInt8) (b b' : Body)
    (he : u ++ r = u' ++ r') (hu : BodyDenotes mode (Room t size) h b u)
    (hu' : BodyDenotes mode (Room t size) h b' u') : u = u' ∧ b = b' := by
  have h1 := (C122_accepts t ht hm mode size h _ r b).mpr ⟨u, rfl, hu⟩
  have h2 := (C122_accepts t ht hm mode size h _ r' b').mpr ⟨u', rfl, hu'⟩
  rw [← he, h1] at h2
  simp only [Outcome.ok.injEq, Prod.mk.injEq] at h2
  obtain ⟨rfl, rfl⟩ := h2
  exact ⟨List.append_cancel_right he, rfl⟩

theorem bodyWire_of_read (t : Target) (mode : BuildMode) (size : Nat) (h : Header)
    (bs rest : List UInt8) (b : Body) (hx : Prog.run t (Body.de t mode size h) bs = .ok (b, rest))
    (enc : List UInt8) (he : Body.toVec mode b = (enc, .ok ())) : enc = bodyWire b := by
  obtain ⟨n, hn, hg, hl⟩ := Body.yields_body (.any t size) mode h .eof bs b rest hx
  rw [C35_encoding ⟨.w64, 0⟩ mode b hg.exist hg.dates] at he
  simpa using he.symm

/-- Under headers without maps, dates, times, integers of 16 or 32 bits and enums of more than
2^28 variants, data read as a body are its encoding exactly if they are as long as that. -/
theorem C122_canonical (t : Target) (ht : t.ptr = .w64) (hm : 4096 ≤ t.memLimit) (mode : BuildMode)
    (size : Nat) (h : Header) (hp : NoMap false h) (bs rest : List UInt8) (b : Body)
    (hx : Prog.run t (Body.de t mode size h) bs = .ok (b, rest)) (enc : List UInt8)
    (he : Body.toVec mode b = (enc, .ok ())) :
    bs = enc ++ rest ↔ bs.length = enc.length + rest.length := by
  have hw := bodyWire_of_read t mode size h bs rest b hx enc he
  subst hw
  obtain ⟨used, rfl, hb⟩ := (C122_accepts t ht hm mode size h bs rest b).mp hx
  have hc := close_body false mode _ h hp b used hb
  simp only [Bool.false_eq_true] at hc
  refine ⟨fun hx => by rw [hx]; simp, fun hl => ?_⟩
  simp only [List.length_append] at hl
  rw [(hc.2 (by omega)).eq]

/-- So data changed without changing their length are not read as the body they were written
from. -/
theorem C122_damage (t : Target) (ht : t.ptr = .w64) (hm : 4096 ≤ t.memLimit) (mode : BuildMode)
    (size : Nat) (h : Header) (hp : NoMap false h) (b : Body) (enc bad rest : List UInt8)
    (he : Body.toVec mode b = (enc, .ok ())) (hl : bad.length = enc.length) (hb : bad ≠ enc) :
    Prog.run t (Body.de t mode size h) (bad ++ rest) ≠ .ok (b, rest) := by
  intro hx
  have hc := (C122_canonical t ht hm mode size h hp _ rest b hx enc he).mpr (by simp [hl])
  exact hb (List.append_cancel_right hc)

/-- Under headers without maps, data of the length of the encoding that are read as the body
differ from it at most where the encoding has 192 or 240. -/
theorem C122_where (t : Target) (ht : t.ptr = .w64) (hm : 4096 ≤ t.memLimit) (mode : BuildMode)
    (size : Nat) (h : Header) (hp : NoMap true h) (used rest : List UInt8) (b : Body)
    (hx : Prog.run t (Body.de t mode size h) (used ++ rest) = .ok (b, rest)) (enc : List UInt8)
    (he : Body.toVec mode b = (enc, .ok ())) (hl : used.length = enc.length) :
    Blurred used enc := by
  have hw := bodyWire_of_read t mode size h _ rest b hx enc he
  subst hw
  obtain ⟨u, hu, hb⟩ := (C122_accepts t ht hm mode size h _ rest b).mp hx
  have hu := List.append_cancel_right hu
  subst hu
  have hc := close_body true mode _ h hp b used hb
  simp only at hc
  exact ((show Close True _ _ by simpa using hc).2 hl).blurred

/-- With maps it is different: entries in another order, as long as the encoding, are read as
the same map. -/
theorem C122_maps (t : Target) (ht : t.ptr = .w64) (hm : 4096 ≤ t.memLimit) (mode : BuildMode)
    (size : Nat) : ∃ (b : Body) (enc bad : List UInt8), Body.toVec mode b = (enc, .ok ()) ∧
      bad.length = enc.length ∧ bad ≠ enc ∧ ¬ Blurred bad enc ∧
      Prog.run t (Body.de t mode size (.map .uint8)) enc = .ok (b, []) ∧
      Prog.run t (Body.de t mode size (.map .uint8)) bad = .ok (b, []) := by
  have ha : utf8 "a" = [97] := by decide
  have hb : utf8 "b" = [98] := by decide
  have hn1 : Number 64 1 [1] := .inl ⟨1, by decide, by decide, by decide, by decide⟩
  have hn2 : Number 64 2 [2] := .inl ⟨1, by decide, by decide, by decide, by decide⟩
  have pa : Prefixed (utf8 "a") [1, 97] := ⟨[1], by rw [ha]; exact hn1, by rw [ha]; rfl⟩
  have pb : Prefixed (utf8 "b") [1, 98] := ⟨[1], by rw [hb]; exact hn1, by rw [hb]; rfl⟩
  have e : ∀ x : UInt8, BodyDenotes mode (Room t size) .uint8 (.uint8 x) [x] := fun x => by
    rw [BodyDenotes]; exact ⟨x, rfl, rfl⟩
  refine ⟨.map [("a", .uint8 5), ("b", .uint8 6)], [2, 1, 97, 5, 1, 98, 6], [2, 1, 98, 6, 1, 97, 5],
    ?_, rfl, by decide, by simp [Blurred], ?_, ?_⟩
  · cases mode <;> decide
  · refine (C122_accepts t ht hm mode size _ _ _ _).mpr ⟨_, (List.append_nil _).symm, ?_⟩
    rw [BodyDenotes]
    refine ⟨[("a", .uint8 5), ("b", .uint8 6)], _, [2], [1, 97, 5, 1, 98, 6], rfl, ?_, rfl, hn2, ?_⟩
    · rw [Body.collected_iff]; rfl
    · exact ⟨[1, 97, 5], [1, 98, 6], rfl, ⟨[1, 97], [5], rfl, pa, e 5⟩, [1, 98, 6], [], rfl,
        ⟨[1, 98], [6], rfl, pb, e 6⟩, rfl⟩
  · refine (C122_accepts t ht hm mode size _ _ _ _).mpr ⟨_, (List.append_nil _).symm, ?_⟩
    rw [BodyDenotes]
    refine ⟨[("b", .uint8 6), ("a", .uint8 5)], _, [2], [1, 98, 6, 1, 97, 5], rfl, ?_, rfl, hn2, ?_⟩
    · rw [Body.collected_iff]; rfl
    · exact ⟨[1, 98, 6], [1, 97, 5], rfl, ⟨[1, 98], [6], rfl, pb, e 6⟩, [1, 97, 5], [], rfl,
        ⟨[1, 97], [5], rfl, pa, e 5⟩, rfl⟩

/-- The sample body is in the grammar of its header. -/
example : ∃ enc, Body.toVec .debug sampleBody = (enc, .ok ()) ∧
    BodyDenotes .debug (Room ⟨.w64, 4096⟩ 56) sampleShape sampleBody enc := by
  obtain ⟨h1, h2, h3, h4, h5⟩ := sampleBody_meets ⟨.w64, 4096⟩ .debug 56 (by decide)
  exact C122_written _ rfl (by decide) _ _ _ _ h1 h2 h3 h4 h5

/-- Headers to which `C122_canonical` and `C122_where` apply. -/
example : NoMap false (.tuple [.string, .enum [.unit, .optional .int64], .array .float64, .bigDecimal]) ∧
    NoMap true (.tuple [.date, .enum [.unit, .uint32], .array .dateTime]) := by
  simp [NoMap, AllNoMap]

/-- A date whose year overflows: refused by a panic with overflow checks, otherwise wrapped. -/
example (t : Target) (ht : t.ptr = .w64) (hm : 4096 ≤ t.memLimit) (size : Nat) :
    ∃ b, Prog.run t (Body.de t .release size .date) [240, 254, 255, 255, 255, 0] = .ok (b, []) :=
  ⟨.date ⟨2147483647 + 2000, 1⟩, (C122_accepts t ht hm .release size _ _ _ _).mpr
    ⟨_, (List.append_nil _).symm, by
      rw [BodyDenotes]
      exact ⟨_, rfl, 2147483647, 0, [240, 254, 255, 255, 255], [0], rfl,
        .inr ⟨240, by decide, by decide, by decide⟩,
        .inl ⟨1, by decide, by decide, by decide, by decide⟩, rfl, rfl, fun h => by cases h⟩⟩⟩

end Dlhn.Props
