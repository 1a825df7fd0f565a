import Verif.Proof.After
import Verif.Proof.BodyGen
import Verif.Proof.DeriveDeGen
import Verif.Props.Header
import Verif.Props.Visit
/-!
# C100: where a failed decode leaves the reader

`Prog.runScriptAt` (Model/After.lean) gives the outcome of a decoder on an arbitrary
reader and the reader afterwards, `Prog.execAt` the outcome and the data left when
the data end for good. `StopsAt` (Spec/After.lean) says where a decoder stops.
-/
namespace Dlhn.Props

open Spec De

/-! ## The place does not depend on the reader -/

/-- The outcomes are those of the runs all other properties speak of. -/
theorem C100_same_outcome (t : Target) {ε α : Type} (p : Prog ε α) (size : Nat → Nat) (s : Script) :
    Prog.runScript t size p s = match Prog.runScriptAt t size p s with
      | (.ok a, s') => .ok (a, s')
      | (.err e, _) => .err e
      | (.panic q, _) => .panic q := by
  rw [Prog.runScriptAt_fst]
  cases Prog.runScriptAt t size p s with
  | mk o s' => cases o <;> rfl

/-- Decoding by type. -/
theorem C100_where (t : Target) (ty : Ty)
    (ht : t.ptr = .w64 ∨ NoText ty) (size : Nat → Nat) (s s' : Script)
    (o : Outcome DeErr Val) (h : Prog.runScriptAt t size (de t ty) s = (o, s')) :
    StopsAt t (fun _ => .read) (de t ty) s o s' := by
  have := Prog.stopsAt t size (strict_on ht) s
  rw [h] at this
  exact this

/-- Decoding by any `Deserialize` implementation that passes errors on. -/
theorem C100_where_impl (t : Target) {α : Type} (i : Impl α) (ht : t.ptr = .w64 ∨ NoTextImpl i)
    (size : Nat → Nat) (s s' : Script) (o : Outcome DeErr α)
    (h : Prog.runScriptAt t size (i.run t) s = (o, s')) :
    StopsAt t (fun _ => .read) (i.run t) s o s' := by
  have := Prog.stopsAt t size (strict_on_impl ht) s
  rw [h] at this
  exact this

/-- Decoding a type that derives `SerializeHeader` and `Deserialize`. -/
theorem C100_where_derived (t : Target) (mode : BuildMode) (env : Derive.Env)
    (T : RTy)
    (ht : t.ptr = .w64 ∨ NoTextDerived T) (size : Nat → Nat) (s s' : Script) (o : Outcome DeErr (Derive.Carrier T))
    (h : Prog.runScriptAt t size (Derive.deTy t mode env T) s = (o, s')) :
    StopsAt t (fun _ => .read) (Derive.deTy t mode env T) s o s' := by
  have := Prog.stopsAt t size (Derive.strict_on mode env ht) s
  rw [h] at this
  exact this

/-- Decoding by header. -/
theorem C100_where_body (t : Target) (mode : BuildMode) (slot : Nat)
    (hd : Header)
    (ht : t.ptr = .w64 ∨ NoTextHeader hd) (size : Nat → Nat) (s s' : Script) (o : Outcome DeErr Body)
    (h : Prog.runScriptAt t size (Body.de t mode slot hd) s = (o, s')) :
    StopsAt t (fun _ => .read) (Body.de t mode slot hd) s o s' := by
  have := Prog.stopsAt t size (Body.strict_on mode slot ht) s
  rw [h] at this
  exact this

/-- Decoding a header. Its errors are those of the reader, and "unexpected end of
file" at the end of the data. -/
theorem C100_where_header (t : Target) (slot d : Nat) (size : Nat → Nat) (s s' : Script)
    (o : Outcome IoErr Header)
    (h : Prog.runScriptAt t size (Header.deserialize slot d) s = (o, s')) :
    StopsAt t id (Header.deserialize slot d) s o s' := by
  have := Prog.stopsAt t size (Header.strict_deserialize slot d) s
  rw [h] at this
  exact this

/-- A pair of a boolean and a number, of which the boolean is bad: the reader is
left at the number. -/
example (t : Target) (ht : t = ⟨.w64, 4096⟩) :
    Prog.runScriptAt t (fun _ => 7) (de t (.tuple [.bool, .u8])) [.data [9], .interrupted,
      .data [5, 6]] = (.err .read, [.interrupted, .data [5, 6]]) := by
  subst ht
  simp [de, deAll, deBool, readBytes, Prog.bind_eq, Prog.pure_eq, Prog.bind, Prog.runScriptAt,
    Script.readExactAt, Script.read]

theorem execAt_u64 (t : Target) {bs rest : List UInt8} {n : Nat}
    (h : varintDecode 64 bs = some (n, rest)) :
    Prog.execAt t (io PrefixVarint.decodeU64) bs = (.ok (UInt64.ofNat n), rest) :=
  Prog.execAt_of_run (by rw [Prog.run, exec_u64, h, ofDec])

theorem execAt_u16 (t : Target) {bs rest : List UInt8} {n : Nat}
    (h : varintDecode 16 bs = some (n, rest)) :
    Prog.execAt t (io PrefixVarint.decodeU16) bs = (.ok (UInt16.ofNat n), rest) :=
  Prog.execAt_of_run (by rw [Prog.run, exec_u16, h, ofDec])

/-! ## The place, for each thing that can be wrong with data -/

/-- A byte that is no boolean is used up, and nothing else. -/
theorem C100_bad_bool (t : Target) (b : UInt8) (h0 : b ≠ 0) (h1 : b ≠ 1) (rest : List UInt8) :
    Prog.execAt t (de t .bool) (b :: rest) = (.err .read, rest) := by
  rw [de, Prog.bind_eq, Prog.execAt_bind, deBool, Prog.bind_eq, Prog.execAt_bind, readBytes,
    Prog.execAt, dif_pos (by simp)]
  have hb : (takeVec (n := 1) (b :: rest) (by simp))[0] = b := rfl
  simp only [Prog.pure_eq, Prog.execAt, hb]
  have h0' : b.toNat ≠ 0 := fun h => h0 (UInt8.toNat_inj.mp h)
  have h1' : b.toNat ≠ 1 := fun h => h1 (UInt8.toNat_inj.mp h)
  split
  · rename_i h; split at h <;> simp_all [Prog.execAt]
  · rename_i h
    split at h
    · simp_all
    · simp_all
    · simp only [Prog.execAt, Prod.mk.injEq, Outcome.err.injEq] at h
      rw [← h.1, ← h.2]; rfl
  · rename_i h; split at h <;> simp_all [Prog.execAt]

/-- So is a bad tag of an `Option`. -/
theorem C100_bad_option (t : Target) (ty : Ty) (b : UInt8) (h0 : b ≠ 0) (h1 : b ≠ 1)
    (rest : List UInt8) :
    Prog.execAt t (de t (.option ty)) (b :: rest) = (.err .read, rest) := by
  have h := C100_bad_bool t b h0 h1 rest
  rw [de, Prog.bind_eq, Prog.execAt_bind] at h
  rw [de, Prog.bind_eq, Prog.execAt_bind]
  cases hx : Prog.execAt t deBool (b :: rest) with
  | mk o r =>
    rw [hx] at h
    cases o with
    | ok v => simp [Prog.pure_eq, Prog.execAt] at h
    | err e =>
      simp only [Prod.mk.injEq, Outcome.err.injEq] at h ⊢
      exact h
    | panic q => simp at h

/-- A string that is not UTF-8 is used up completely. -/
theorem C100_bad_string (t : Target) (bs text rest : List UInt8)
    (h : varintDecode 64 bs = some (text.length, text ++ rest)) (hu : ∀ s, utf8 s ≠ text) :
    Prog.execAt t (de t .string) bs = (.err .read, rest) := by
  have hn := varintDecode_lt (by simp) h
  have hf : fromUtf8 text = none := by
    cases hx : fromUtf8 text with
    | none => rfl
    | some s => exact absurd (utf8_of_fromUtf8 hx) (hu s)
  have hlen : (UInt64.ofNat text.length).toNat = text.length := by
    rw [UInt64.toNat_ofNat', Nat.mod_eq_of_lt hn]
  have key : Prog.execAt t (deString t) bs = (.err .read, rest) := by
    rw [deString, Prog.bind_eq, Prog.execAt_bind, execAt_u64 t h]
    simp only
    split
    · rw [Prog.bind_eq, Prog.execAt_bind, readBytes, Prog.execAt, dif_pos (by simp [hlen])]
      simp only [Prog.pure_eq, Prog.execAt, toList_takeVec, hlen, List.take_left', List.drop_left',
        hf]
    · simp only [Prog.execAt, hlen]
      rw [if_pos (by simp)]
      simp only [List.take_left', List.drop_left', hf, Prog.execAt]
  rw [de, Prog.bind_eq, Prog.execAt_bind, key]

/-- The empty string where a `char` is expected is used up. -/
theorem C100_bad_char (t : Target) (bs rest : List UInt8) (h : varintDecode 64 bs = some (0, rest)) :
    Prog.execAt t (de t .char) bs = (.err .charSize, rest) := by
  have hf : fromUtf8 [] = some "" := by decide +kernel
  rw [de, Prog.bind_eq, Prog.execAt_bind, deChar, Prog.bind_eq, Prog.execAt_bind, deString,
    Prog.bind_eq, Prog.execAt_bind, execAt_u64 t h]
  simp only
  rw [if_pos (by decide), Prog.bind_eq, Prog.execAt_bind, readBytes, Prog.execAt,
    dif_pos (by simp)]
  simp only [Prog.pure_eq, Prog.execAt, toList_takeVec]
  simp [hf, Prog.execAt]

/-- Of an enum with an unknown index, the index is used up and the value is not. -/
theorem C100_bad_index (t : Target) (name : String) (vs : List (String × VTy)) (i : Nat)
    (bs rest : List UInt8) (h : varintDecode 16 bs = some (i, rest)) (hi : vs.length ≤ i) :
    Prog.execAt t (de t (.enum name vs)) bs = (.err (unknownVariant i vs.length), rest) := by
  have hn := varintDecode_lt (by simp) h
  have hi16 : (UInt16.ofNat i).toNat = i := by
    rw [UInt16.toNat_ofNat', Nat.mod_eq_of_lt hn]
  rw [de, Prog.bind_eq, Prog.execAt_bind, execAt_u16 t h]
  simp only [hi16]
  rw [deVariant_none t name (UInt16.ofNat i) i vs hi, hi16, show i - (i - vs.length) = vs.length by omega]
  rfl

/-- Of a tuple or struct the members after a bad one are not read. -/
theorem C100_bad_member (t : Target) (hm : 4096 ≤ t.memLimit) (pre post : List Ty) (ty : Ty)
    (vs : List Val) (hs : AllSupported pre) (hv : HasAll t pre vs) (bs rest : List UInt8) (e : DeErr)
    (h : Prog.execAt t (de t ty) bs = (.err e, rest)) :
    Prog.execAt t (de t (.tuple (pre ++ ty :: post))) (wireAll vs ++ bs) = (.err e, rest) := by
  have key : ∀ (pre : List Ty) (vs : List Val), AllSupported pre → HasAll t pre vs →
      Prog.execAt t (deAll t (pre ++ ty :: post)) (wireAll vs ++ bs) = (.err e, rest) := by
    intro pre
    induction pre with
    | nil =>
      intro vs _ hv
      simp only [HasAll] at hv
      subst hv
      rw [wireAll, List.nil_append, List.nil_append, deAll, Prog.bind_eq, Prog.execAt_bind, h]
    | cons ty' pre ih =>
      intro vs hs hv
      simp only [AllSupported] at hs
      simp only [HasAll] at hv
      obtain ⟨w, ws, rfl, hw, hws⟩ := hv
      rw [wireAll, List.append_assoc, List.cons_append, deAll, Prog.bind_eq, Prog.execAt_bind,
        Prog.execAt_of_run (de_wire t hm ty' hs.1 w hw .eof _)]
      simp only
      rw [Prog.bind_eq, Prog.execAt_bind, ih ws hs.2 hws]
  rw [de, Prog.bind_eq, Prog.execAt_bind, key pre vs hs hv]

/-- Of a sequence the elements after a bad one are not read. -/
theorem C100_bad_element (t : Target) (hm : 4096 ≤ t.memLimit) (ty : Ty) (hs : Supported ty)
    (vs : List Val) (hv : ∀ v ∈ vs, Has t ty v) (n : Nat) (hn : vs.length < n)
    (hb : n < 2 ^ t.ptr.bits) (bs rest : List UInt8) (e : DeErr)
    (h : Prog.execAt t (de t ty) bs = (.err e, rest)) :
    Prog.execAt t (de t (.seq ty)) (varint 64 n ++ (wireAll vs ++ bs)) = (.err e, rest) := by
  have key : ∀ (vs : List Val) (n : Nat), vs.length < n → (∀ v ∈ vs, Has t ty v) →
      Prog.execAt t (times n (de t ty)) (wireAll vs ++ bs) = (.err e, rest) := by
    intro vs
    induction vs with
    | nil =>
      intro n hn _
      obtain ⟨n, rfl⟩ : ∃ m, n = m + 1 := ⟨n - 1, by simp at hn; omega⟩
      rw [wireAll, List.nil_append, times, Prog.bind_eq, Prog.execAt_bind, h]
    | cons v vs ih =>
      intro n hn hv
      simp only [List.length_cons] at hn
      obtain ⟨n, rfl⟩ : ∃ m, n = m + 1 := ⟨n - 1, by omega⟩
      rw [wireAll, List.append_assoc, times, Prog.bind_eq, Prog.execAt_bind,
        Prog.execAt_of_run (de_wire t hm ty hs v (hv v List.mem_cons_self) .eof _)]
      simp only
      rw [Prog.bind_eq, Prog.execAt_bind,
        ih n (by omega) fun v' hv' => hv v' (List.mem_cons_of_mem _ hv')]
  rw [de, Prog.bind_eq, Prog.execAt_bind,
    Prog.execAt_of_run (exec_u64_varint t .eof n (lt_64_of_lt_bits hb) _)]
  simp only [asUsize_ofNat hb]
  rw [Prog.bind_eq, Prog.execAt_bind, key vs n hn hv]

/-- Sequences of strings, of enums and of characters with one bad element each; what
is left begins right after the string, after the index, after the empty string. -/
example (t : Target) (hm : 4096 ≤ t.memLimit) :
    Prog.execAt t (de t (.seq .string)) [3, 1, 97, 2, 255, 255, 1, 98] = (.err .read, [1, 98]) ∧
    (∃ msg, Prog.execAt t (de t (.seq (.enum "E" [("A", .newtype .u8)]))) [3, 0, 9, 5, 7, 0, 8]
      = (.err (.message msg), [7, 0, 8])) ∧
    Prog.execAt t (de t (.seq .char)) [2, 0, 1, 98] = (.err .charSize, [1, 98]) := by
  have hb : 8 < 2 ^ t.ptr.bits := by cases t.ptr <;> decide
  refine ⟨?_, ?_, ?_⟩
  · have h := C100_bad_string t [2, 255, 255, 1, 98] [255, 255] [1, 98] (by decide +kernel) (by
      intro s hs
      have := congrArg fromUtf8 hs
      rw [fromUtf8_utf8, show fromUtf8 [255, 255] = none by decide +kernel] at this
      simp at this)
    rw [show ([3, 1, 97, 2, 255, 255, 1, 98] : List UInt8)
      = varint 64 3 ++ (wireAll [.str "a"] ++ [2, 255, 255, 1, 98]) by decide +kernel]
    exact C100_bad_element t hm .string trivial [.str "a"] (by
      intro v hv
      simp only [List.mem_singleton] at hv
      subst hv
      simp [Has]
      exact Nat.lt_trans (by decide +kernel) hb) 3 (by simp) (by omega) _ _ _ h
  · have h := C100_bad_index t "E" [("A", .newtype .u8)] 5 [5, 7, 0, 8] [7, 0, 8]
      (by decide +kernel) (by simp)
    rw [show ([3, 0, 9, 5, 7, 0, 8] : List UInt8)
      = varint 64 3 ++ (wireAll [.newtypeVariant "E" 0 "A" (.u8 9)] ++ [5, 7, 0, 8])
      by decide +kernel]
    exact ⟨_, C100_bad_element t hm (.enum "E" [("A", .newtype .u8)]) (by
      simp [Supported, VariantsSupported, PayloadSupported])
      [.newtypeVariant "E" 0 "A" (.u8 9)] (by
      intro v hv
      simp only [List.mem_singleton] at hv
      subst hv
      simp [Has, HasVariant, HasPayload]) 3 (by simp) (by omega) _ _ _ h⟩
  · rw [show ([2, 0, 1, 98] : List UInt8) = varint 64 2 ++ (wireAll [] ++ [0, 1, 98])
      by decide +kernel]
    exact C100_bad_element t hm .char trivial [] (by simp) 2 (by simp) (by omega) _ _ _
      (C100_bad_char t [0, 1, 98] [1, 98] (by decide +kernel))

/-! ## Trying again after a failure of the reader -/

/-- A reader that fails before it has delivered the whole value (for instance a
socket that would block or times out): the bytes it had delivered are gone. What the
next attempt reads begins after them. -/
theorem C100_lost (t : Target) (hm : 4096 ≤ t.memLimit) (ty : Ty)
    (hs : Supported ty) (v : Val) (hv : Has t ty v) (size : Nat → Nat) (s : Script)
    (h : s.bytes <+: (Ser.toVec v).1) (hne : s.bytes ≠ (Ser.toVec v).1) :
    Prog.runScriptAt t size (de t ty) s = (.err .read, s.after) := by
  obtain ⟨enc, h1, h2⟩ := C07_roundtrip t hm ty hs v hv
  rw [h1] at h hne
  exact (Prog.recognised (tame_de t ty) (h2 [0]) (by simp)).cut size s h hne

/-- `u16` 300 from a socket that would block after its first byte: the second attempt
reads the second byte as a number of its own, without an error. -/
theorem C100_retry_corrupts (t : Target) (e : IoErr) : ∃ first second : List UInt8,
    (Ser.toVec (.u16 300)).1 = first ++ second ∧ first ≠ [] ∧ second ≠ [] ∧
    ∃ r1 r2, Prog.runScriptAt t (fun _ => 0) (de t .u16) [.data first, .fail e, .data second]
        = (.err .read, r1) ∧
      Prog.runScriptAt t (fun _ => 0) (de t .u16) r1 = (.ok (.u16 4), r2) := by
  have hst : Prog.Strict orRead (de t .u16) := by
    rw [de]; exact (strict_u16.mapErr orRead).bind fun _ => trivial
  refine ⟨[172], [4], by decide +kernel, by simp, by simp, [.data [4]], ?_⟩
  have h1 := Prog.complete_runScriptAt t (fun _ => 0) hst [.data [172], .fail e, .data [4]]
  have h2 := Prog.complete_runScriptAt t (fun _ => 0) hst [.data [4]]
  have c1 : Prog.complete t (de t .u16) [172] = none := rfl
  have c2 : Prog.complete t (de t .u16) [4] = some (.ok (.u16 4), []) := rfl
  simp only [Script.bytes, reduceCtorEq, if_false, List.append_nil] at h1 h2
  rw [c1] at h1
  rw [c2] at h2
  obtain ⟨r2, h2, -⟩ := h2
  exact ⟨r2, by simpa [Script.after, orRead] using h1, h2⟩

/-- Only a reader that fails before it has delivered anything can be asked again. -/
theorem C100_retry (t : Target) (hm : 4096 ≤ t.memLimit) (ty : Ty)
    (hs : Supported ty) (v : Val) (hv : Has t ty v) (h0 : (Ser.toVec v).1 ≠ []) (size : Nat → Nat)
    (s : Script) (hb : s.bytes = []) (more : List UInt8) (ha : s.after.bytes = (Ser.toVec v).1 ++ more) :
    ∃ r, Prog.runScriptAt t size (de t ty) s = (.err .read, s.after) ∧
      Prog.runScriptAt t size (de t ty) s.after = (.ok v, r) ∧ r.bytes = more := by
  refine ⟨(Prog.runScriptAt t size (de t ty) s.after).2,
    C100_lost t hm ty hs v hv size s (by simp [hb]) (by rw [hb]; exact Ne.symm h0), ?_⟩
  obtain ⟨s', h1, h2, -⟩ := C25_enough t hm ty hs v hv more size s.after ha
  rw [Prog.runScriptAt_fst] at h1
  cases hx : Prog.runScriptAt t size (de t ty) s.after with
  | mk o r =>
    rw [hx] at h1
    cases o with
    | ok v' =>
      simp only [withLeft, Outcome.ok.injEq, Prod.mk.injEq] at h1
      rw [h1.1, h1.2]
      exact ⟨rfl, h2⟩
    | err e => simp [withLeft] at h1
    | panic q => simp [withLeft] at h1

/-- `u16` 300 from a socket that would block at once. -/
example (t : Target) (hm : 4096 ≤ t.memLimit) (e : IoErr) : ∃ r,
    Prog.runScriptAt t (fun _ => 0) (de t .u16) [.fail e, .data [172, 4, 9]]
      = (.err .read, [.data [172, 4, 9]]) ∧
    Prog.runScriptAt t (fun _ => 0) (de t .u16) [.data [172, 4, 9]] = (.ok (.u16 300), r) ∧
    r.bytes = [9] :=
  C100_retry t hm .u16 trivial (.u16 300) (by simp [Has]) (by decide +kernel) (fun _ => 0)
    [.fail e, .data [172, 4, 9]] rfl [9] (by
      rw [show (Ser.toVec (.u16 300)).1 = [172, 4] by decide +kernel]; rfl)

end Dlhn.Props
