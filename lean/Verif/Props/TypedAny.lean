import Verif.Props.Typed
import Verif.Proof.NoText
/-! # Strings, buffers, truncation and locality on every target -/
namespace Dlhn.Props
open Spec De

/-! ## C10, C11 on every target, for types without text -/

/-- On every target: whatever a type without text decodes to using all of the input, every strict
prefix of the input is `Err(Read)`. -/
theorem C10_truncation_any (t : Target) (ty : Ty) (hty : NoText ty) (bs : List UInt8) (v : Val)
    (h : Prog.run t (de t ty) bs = .ok (v, [])) (pre : List UInt8) (hpre : pre <+: bs)
    (hne : pre ≠ bs) : Prog.run t (de t ty) pre = .err .read := by
  obtain ⟨used, hb, -, hp⟩ := Prog.exec_split t .eof (strict_noText t ty hty) h
  rw [List.append_nil] at hb
  subst hb
  exact hp .eof pre hpre hne

/-- More generally: any prefix that ends within the consumed bytes. -/
theorem C10_truncation_in_stream_any (t : Target) (ty : Ty) (hty : NoText ty)
    (bs rest : List UInt8) (v : Val) (h : Prog.run t (de t ty) bs = .ok (v, rest)) (n : Nat)
    (hn : n + rest.length < bs.length) : Prog.run t (de t ty) (bs.take n) = .err .read := by
  obtain ⟨used, hb, -, hp⟩ := Prog.exec_split t .eof (strict_noText t ty hty) h
  subst hb
  rw [List.length_append] at hn
  refine hp .eof _ ?_ ?_
  · rw [List.take_append_of_le_length (by omega)]
    exact List.take_prefix _ _
  · intro h'
    have := congrArg List.length h'
    rw [List.length_take, List.length_append] at this
    omega

/-- On every target: what a type without text decodes to, and what is left over, depends only on
the bytes consumed. -/
theorem C11_locality_any (t : Target) (ty : Ty) (hty : NoText ty) (bs rest : List UInt8) (v : Val)
    (h : Prog.run t (de t ty) bs = .ok (v, rest)) :
    ∃ used, bs = used ++ rest ∧ ∀ other, Prog.run t (de t ty) (used ++ other) = .ok (v, other) := by
  obtain ⟨used, hb, hs, -⟩ := Prog.exec_split t .eof (strict_noText t ty hty) h
  exact ⟨used, hb, fun other => hs .eof other⟩

/-- A map from numbers to optional buffers, on a 32-bit target. -/
example : NoText (.map .u16 (.option .byteBuf)) ∧
    Prog.run ⟨.w32, 4096⟩ (de ⟨.w32, 4096⟩ (.map .u16 (.option .byteBuf))) [1, 7, 1, 2, 8, 9]
      = .ok (.map (some 1) [(.u16 7, .some (.bytes [8, 9]))], []) :=
  ⟨⟨trivial, trivial⟩, rfl⟩

/-! ## C16 on every target -/

/-- Exactly what is read as a string where numbers of bytes have `t.ptr.bits` bits: the bytes
after the length, as many as it says or all there are, if they are as many as the lowest bits of
the length say. -/
theorem C16_string_any (t : Target) (bs rest : List UInt8) (s : String) :
    Prog.run t (de t .string) bs = .ok (.str s, rest) ↔
      ∃ len, varintDecode 64 bs = some (len, utf8 s ++ rest) ∧
        (utf8 s).length = len % 2 ^ t.ptr.bits ∧
        ((utf8 s).length = len ∨ (utf8 s).length < len ∧ rest = []) := by
  rw [de, Prog.run, exec_map, exec_deString_any]
  cases hd : varintDecode 64 bs with
  | none => simp [Outcome.map]
  | some vr =>
    obtain ⟨n, body⟩ := vr
    simp only
    constructor
    · intro h
      split at h
      · rename_i s' hs'
        split at h
        · rename_i hlen
          simp only [Outcome.map, Outcome.ok.injEq, Prod.mk.injEq, Val.str.injEq] at h
          obtain ⟨rfl, rfl⟩ := h
          have hu := utf8_of_fromUtf8 hs'
          refine ⟨n, ?_, ?_, ?_⟩
          · rw [hu, List.take_append_drop]
          · rw [hu, hlen]
          · rw [hu, List.length_take]
            by_cases hle : n ≤ body.length
            · exact .inl (Nat.min_eq_left hle)
            · exact .inr ⟨by omega, List.drop_of_length_le (by omega)⟩
        · simp [Outcome.map] at h
      · simp [Outcome.map] at h
    · rintro ⟨len, he, hlen, hcase⟩
      simp only [Option.some.injEq, Prod.mk.injEq] at he
      obtain ⟨rfl, rfl⟩ := he
      rcases hcase with heq | ⟨hlt, rfl⟩
      · rw [List.take_left' heq, List.drop_left' heq, fromUtf8_utf8]
        simp only
        rw [if_pos hlen]
        rfl
      · rw [List.append_nil, List.take_of_length_le (by omega), List.drop_of_length_le (by omega),
          fromUtf8_utf8]
        simp only
        rw [if_pos hlen]
        rfl

/-- In every other case the result is `Err(Read)`. -/
theorem C16_string_any_err (t : Target) (bs : List UInt8)
    (h : ¬ ∃ s rest len, varintDecode 64 bs = some (len, utf8 s ++ rest) ∧
        (utf8 s).length = len % 2 ^ t.ptr.bits ∧
        ((utf8 s).length = len ∨ (utf8 s).length < len ∧ rest = [])) :
    Prog.run t (de t .string) bs = .err .read := by
  cases hx : Prog.run t (de t .string) bs with
  | ok a =>
    obtain ⟨v, r⟩ := a
    have hx' := hx
    rw [de, Prog.run, exec_map] at hx
    cases hy : Prog.exec t .eof (deString t) bs with
    | ok a =>
      rw [hy] at hx
      simp only [Outcome.map, Outcome.ok.injEq, Prod.mk.injEq] at hx
      obtain ⟨rfl, rfl⟩ := hx
      exact absurd ⟨_, _, (C16_string_any t bs _ _).mp hx'⟩ h
    | err e => rw [hy] at hx; simp [Outcome.map] at hx
    | panic q => rw [hy] at hx; simp [Outcome.map] at hx
  | err e =>
    rw [de, Prog.run, exec_map, exec_deString_any] at hx
    revert hx
    cases varintDecode 64 bs with
    | none => rintro ⟨⟩; rfl
    | some vr =>
      simp only
      split
      · split
        · simp [Outcome.map]
        · rintro ⟨⟩; rfl
      · rintro ⟨⟩; rfl
  | panic q =>
    rw [de, Prog.run, exec_map, exec_deString_any] at hx
    revert hx
    cases varintDecode 64 bs with
    | none => simp [Outcome.map]
    | some vr =>
      simp only
      split
      · split <;> simp [Outcome.map]
      · simp [Outcome.map]

/-- With a length over 2^32 that wraps to 1: one byte at the end of the input is a string on a
32-bit target, and none on a 64-bit target. -/
example : Prog.run ⟨.w32, 4096⟩ (de ⟨.w32, 4096⟩ .string) (varint 64 (2 ^ 32 + 1) ++ [97])
      = .ok (.str "a", []) ∧
    Prog.run ⟨.w64, 4096⟩ (de ⟨.w64, 4096⟩ .string) (varint 64 (2 ^ 32 + 1) ++ [97])
      = .err .read := by
  have hd : varintDecode 64 (varint 64 (2 ^ 32 + 1) ++ [97]) = some (2 ^ 32 + 1, [97]) := by
    decide +kernel
  have hu : utf8 "a" = [97] := by decide +kernel
  refine ⟨(C16_string_any _ _ _ _).mpr ⟨2 ^ 32 + 1, by rw [hd, hu]; rfl, by rw [hu]; decide,
    .inr ⟨by rw [hu]; decide, rfl⟩⟩, C16_string_any_err _ _ ?_⟩
  rintro ⟨s, rest, len, h1, h2, h3⟩
  rw [hd] at h1
  simp only [Option.some.injEq, Prod.mk.injEq] at h1
  have hl := congrArg List.length h1.2
  rw [List.length_append, List.length_singleton] at hl
  rw [← h1.1] at h2
  change _ = (2 ^ 32 + 1) % 2 ^ 64 at h2
  omega

/-! ## C17 on every target -/

/-- Exactly what is read as a buffer: `bufferBytes` bytes after the length. -/
theorem C17_byteBuf_any (t : Target) (hm : 4096 ≤ t.memLimit) (bs rest b : List UInt8) :
    Prog.run t (de t .byteBuf) bs = .ok (.bytes b, rest) ↔
      ∃ len, varintDecode 64 bs = some (len, b ++ rest) ∧
        b.length = bufferBytes t.ptr.bits len := by
  rw [de, Prog.run, exec_map, exec_deByteBuf_any t hm]
  cases hd : varintDecode 64 bs with
  | none => simp [Outcome.map]
  | some vr =>
    obtain ⟨n, body⟩ := vr
    simp only
    constructor
    · intro h
      split at h
      · rename_i hle
        simp only [Outcome.map, Outcome.ok.injEq, Prod.mk.injEq, Val.bytes.injEq] at h
        obtain ⟨rfl, rfl⟩ := h
        exact ⟨n, by rw [List.take_append_drop], by rw [List.length_take, Nat.min_eq_left hle]⟩
      · simp [Outcome.map] at h
    · rintro ⟨len, he, hlen⟩
      simp only [Option.some.injEq, Prod.mk.injEq] at he
      obtain ⟨rfl, rfl⟩ := he
      rw [if_pos (by rw [List.length_append]; omega), List.take_left' hlen, List.drop_left' hlen]
      rfl

/-- In every other case the result is `Err(Read)`. -/
theorem C17_byteBuf_any_err (t : Target) (hm : 4096 ≤ t.memLimit) (bs : List UInt8)
    (h : ¬ ∃ b rest len, varintDecode 64 bs = some (len, b ++ rest) ∧
        b.length = bufferBytes t.ptr.bits len) :
    Prog.run t (de t .byteBuf) bs = .err .read := by
  rw [de, Prog.run, exec_map, exec_deByteBuf_any t hm]
  cases hd : varintDecode 64 bs with
  | none => rfl
  | some vr =>
    obtain ⟨n, body⟩ := vr
    simp only
    split
    · rename_i hle
      exact absurd ⟨body.take (bufferBytes t.ptr.bits n), body.drop (bufferBytes t.ptr.bits n), n, by rw [hd, List.take_append_drop],
        by rw [List.length_take, Nat.min_eq_left hle]⟩ h
    · rfl

/-- On a 32-bit target the announced length 2^32 + 4097 is answered with two whole chunks. -/
theorem C17_byteBuf_wrapped (t : Target) (ht : t.ptr = .w32) (hm : 4096 ≤ t.memLimit)
    (b rest : List UInt8) (hb : b.length = 8192) :
    Prog.run t (de t .byteBuf) (varint 64 (2 ^ 32 + 4097) ++ b ++ rest) = .ok (.bytes b, rest) := by
  refine (C17_byteBuf_any t hm _ _ _).mpr ⟨2 ^ 32 + 4097, ?_, ?_⟩
  · rw [List.append_assoc]
    exact varintDecode_varint 64 _ (by decide) (by decide) _
  · rw [hb, ht]
    decide +kernel

example : (List.replicate 8192 (1 : UInt8)).length = 8192 := List.length_replicate

end Dlhn.Props
