import Verif.Proof.Catch
import Verif.Props.After
/-!
# C101: implementations that catch errors

A `CatchImpl α` (Model/Catch.lean) is code that uses the deserializer and the access
objects it hands out like an `Impl`, and may go on after an error. `CatchImpl.runScript`
is what it does on an arbitrary reader, `CatchImpl.exec` on data that end for good.
-/
namespace Dlhn.Props

open Spec De

/-- `passing i` (Spec/Catch.lean) follows every call by `?`. It does what `i` does. -/
theorem C101_passing (t : Target) {α : Type} (i : Impl α) :
    (∀ size s, (passing i).runScript t size s = Prog.runScriptAt t size (i.run t) s) ∧
    ∀ bs, (passing i).exec t bs = Prog.execAt t (i.run t) bs :=
  ⟨fun size s => run_passing (lawful_script t size) t i s,
    fun bs => run_passing (lawful_exec t) t i bs⟩

/-- Whatever it does about errors, and whatever the reader does, it cannot be made to
panic by the deserializer unless it calls one of the four unimplemented methods. -/
theorem C101_returns (t : Target) (hm : 4096 ≤ t.memLimit) {α : Type} (i : CatchImpl α)
    (h : CatchNoTodo i) (size : Nat → Nat) (s : Script) :
    (i.runScript t size s).1.returns :=
  returns_run (fun i hi s => (closed_impl (closed_total hm) i (.inl hi)).runScriptAt size s) i h s

/-- On data that end for good it does the same in whatever chunks and with whatever
interruptions they arrive. -/
theorem C101_reader (t : Target) {α : Type} (i : CatchImpl α)
    (size : Nat → Nat) (s : Script) (hs : s.Clean) :
    ((i.runScript t size s).1, (i.runScript t size s).2.bytes) = i.exec t s.bytes := by
  have h := related_run (R := fun (s : Script) (bs : List UInt8) => s.Clean ∧ s.bytes = bs)
    (t := t) (r := fun p s => p.runScriptAt t size s) (r' := fun p bs => p.execAt t bs)
    (fun i s bs hb => by
      obtain ⟨hc, rfl⟩ := hb
      have hx := Prog.runScriptAt_clean_any t size (i.run t) hc
      exact ⟨by rw [← hx], hc.runScriptAt t size _, by rw [← hx]⟩)
    i s s.bytes ⟨hs, rfl⟩
  exact Prod.ext h.1 h.2.2

/-- A hand-written implementation that goes on after errors: a boolean, replaced by
`false` if it is bad, then a string, or a number if there is no string. -/
def sampleCatch : CatchImpl (Bool × Nat) :=
  .andThen (orDefault (.plain .bool) false) fun
    | .error e => .error e
    | .ok b => .andThen (.plain .string) fun
      | .ok s => .ok (b, s.length)
      | .error _ => .andThen (.plain .u8) fun
        | .ok n => .ok (b, n.toNat)
        | .error e => .error e

example : CatchNoTodo sampleCatch := by
  simp only [sampleCatch, orDefault, CatchNoTodo, NoTodo, true_and]
  refine ⟨fun b => ?_, fun b => ?_⟩
  · cases b <;> simp [CatchNoTodo]
  · cases b with
    | error e => simp [CatchNoTodo]
    | ok b =>
      simp only [CatchNoTodo, NoTodo, true_and]
      intro c
      cases c with
      | ok s => simp [CatchNoTodo]
      | error e =>
        simp only [CatchNoTodo, NoTodo, true_and]
        intro d
        cases d <;> simp [CatchNoTodo]

/-- A bad boolean and a bad string are skipped and the number is read. -/
example : (sampleCatch.exec ⟨.w64, 4096⟩ [9, 2, 255, 255, 7, 8]) = (.ok (false, 7), [8]) := by
  decide +kernel

example : Script.Clean [.data [9], .interrupted, .data [2, 255], .data [255, 7, 8]] := by
  intro ev h
  simp at h
  rcases h with rfl | rfl | rfl | rfl <;> simp

/-! ## Replacing errors by a default -/

/-- `T::deserialize(d).unwrap_or(default)` succeeds whatever the reader delivers. It
leaves the reader where `T::deserialize` stopped. -/
theorem C101_default (t : Target) (hm : 4096 ≤ t.memLimit) {α : Type} (i : CatchImpl α)
    (h : CatchNoTodo i) (default : α) (size : Nat → Nat) (s : Script) :
    ∃ a, (orDefault i default).runScript t size s = (.ok a, (i.runScript t size s).2) ∧
      ((i.runScript t size s).1 = .ok a ∨
        (∃ e, (i.runScript t size s).1 = .err e) ∧ a = default) := by
  have hr := C101_returns t hm i h size s
  rw [orDefault, CatchImpl.runScript, CatchImpl.run, ← CatchImpl.runScript]
  cases hx : i.runScript t size s with
  | mk o s' =>
    rw [hx] at hr
    cases o with
    | ok a => exact ⟨a, by simp [thenWith, CatchImpl.run], .inl rfl⟩
    | err e => exact ⟨default, by simp [thenWith, CatchImpl.run], .inr ⟨⟨e, rfl⟩, rfl⟩⟩
    | panic q => exact absurd hr (by simp [Outcome.returns])

theorem exec_orDefault_ok (t : Target) {α : Type} (i : Impl α) (default : α)
    {bs rest : List UInt8} {a : α} (h : Prog.execAt t (i.run t) bs = (.ok a, rest)) :
    (orDefault (.plain i) default).exec t bs = (.ok a, rest) := by
  rw [orDefault, CatchImpl.exec, CatchImpl.run, CatchImpl.run, h]
  simp [thenWith, CatchImpl.run]

theorem exec_orDefault_err (t : Target) {α : Type} (i : Impl α) (default : α)
    {bs rest : List UInt8} {e : DeErr} (h : Prog.execAt t (i.run t) bs = (.err e, rest)) :
    (orDefault (.plain i) default).exec t bs = (.ok default, rest) := by
  rw [orDefault, CatchImpl.exec, CatchImpl.run, CatchImpl.run, h]
  simp [thenWith, CatchImpl.run]

theorem execAt_err_of_bind {α β : Type} {t : Target} {p : Prog DeErr α} {f : α → β}
    {bs rest : List UInt8} {e : DeErr}
    (h : Prog.execAt t (Prog.bind p fun a => .done (.ok (f a))) bs = (.err e, rest)) :
    Prog.execAt t p bs = (.err e, rest) := by
  rw [Prog.execAt_bind] at h
  cases hx : Prog.execAt t p bs with
  | mk o r =>
    rw [hx] at h
    cases o with
    | ok v => simp [Prog.execAt] at h
    | err e' => simpa using h
    | panic q => simp at h

theorem execAt_ok_of_bind {α β : Type} {t : Target} {p : Prog DeErr α} {f : α → β}
    {bs rest : List UInt8} {b : β}
    (h : Prog.execAt t (Prog.bind p fun a => .done (.ok (f a))) bs = (.ok b, rest)) :
    ∃ a, f a = b ∧ Prog.execAt t p bs = (.ok a, rest) := by
  rw [Prog.execAt_bind] at h
  cases hx : Prog.execAt t p bs with
  | mk o r =>
    rw [hx] at h
    cases o with
    | ok v =>
      simp only [Prog.execAt, Prod.mk.injEq, Outcome.ok.injEq] at h
      exact ⟨v, h.1, by rw [h.2]⟩
    | err e' => simp at h
    | panic q => simp at h

theorem exec_catchVec (t : Target) {β : Type} (seed : CatchImpl β)
    (slots : List (List UInt8 × β)) (hb : slots.length < 2 ^ t.ptr.bits)
    (h : ∀ b ∈ slots, ∀ rest, seed.exec t (b.1 ++ rest) = (.ok b.2, rest)) (more : List UInt8) :
    (catchVec seed).exec t (varint 64 slots.length ++ (slots.flatMap (·.1) ++ more))
      = (.ok (slots.map (·.2)), more) := by
  rw [catchVec, CatchImpl.exec, CatchImpl.run,
    Prog.execAt_of_run (exec_u64_varint t .eof _ (lt_64_of_lt_bits hb) _)]
  simp only [thenOk, thenWith, asUsize_ofNat hb]
  rw [run_catchVecLoop slots h _ (by omega)]
  simp

theorem readsAs_bool (t : Target) (b : UInt8) : ReadsAs t .bool [b] (boolOf b) := by
  by_cases h0 : b = 0
  · subst h0; exact fun rest => rfl
  · by_cases h1 : b = 1
    · subst h1; exact fun rest => rfl
    · rw [boolOf, if_neg h0, if_neg h1]
      intro rest
      have hx := C100_bad_bool t b h0 h1 rest
      rw [de] at hx
      exact ⟨_, execAt_err_of_bind hx⟩

/-- A list of booleans of which bad ones are replaced: each byte that is neither 0
nor 1 becomes the default, and all others are what they were. -/
theorem C101_isolated_bool (t : Target) (default : Bool) (bytes : List UInt8)
    (hb : bytes.length < 2 ^ t.ptr.bits) (more : List UInt8) :
    (catchVec (orDefault (.plain .bool) default)).exec t
        (varint 64 bytes.length ++ (bytes ++ more))
      = (.ok (bytes.map fun b => (boolOf b).getD default), more) := by
  have h := exec_catchVec t (orDefault (.plain .bool) default)
    (bytes.map fun b => ([b], (boolOf b).getD default)) (by simpa using hb) (by
      intro x hx rest
      obtain ⟨b, -, rfl⟩ := List.mem_map.mp hx
      have h := readsAs_bool t b
      simp only
      cases hv : boolOf b with
      | some v => rw [hv] at h; exact exec_orDefault_ok t .bool default (h rest)
      | none =>
        rw [hv] at h
        obtain ⟨e, h⟩ := h rest
        exact exec_orDefault_err t .bool default h)
    more
  simpa [List.flatMap_map, Function.comp_def] using h

example : (catchVec (orDefault (.plain .bool) true)).exec ⟨.w64, 4096⟩ [4, 1, 0, 77, 0, 5]
    = (.ok [true, false, true, false], [5]) := by
  rw [show ([4, 1, 0, 77, 0, 5] : List UInt8)
    = varint 64 ([1, 0, 77, 0] : List UInt8).length ++ ([1, 0, 77, 0] ++ [5]) by decide +kernel,
    C101_isolated_bool ⟨.w64, 4096⟩ true [1, 0, 77, 0] (by decide) [5]]
  rfl

/-- A list of strings of which bad ones are replaced: each text that is not UTF-8
becomes the default, and all others are what they were. -/
theorem C101_isolated_string (t : Target) (hm : 4096 ≤ t.memLimit) (default : String)
    (texts : List (List UInt8)) (hb : texts.length < 2 ^ t.ptr.bits)
    (hl : ∀ x ∈ texts, x.length < 2 ^ t.ptr.bits) (more : List UInt8) :
    ∃ replaced : List UInt8 → String,
      (catchVec (orDefault (.plain .string) default)).exec t
          (varint 64 texts.length ++ (texts.flatMap (fun x => varint 64 x.length ++ x) ++ more))
        = (.ok (texts.map replaced), more) ∧
      ∀ x, utf8 (replaced x) = x ∨ (∀ s, utf8 s ≠ x) ∧ replaced x = default := by
  refine ⟨fun x => (fromUtf8 x).getD default, ?_, fun x => ?_⟩
  · have h := exec_catchVec t (orDefault (.plain .string) default)
      (texts.map fun x => (varint 64 x.length ++ x, (fromUtf8 x).getD default))
      (by simpa using hb) (by
        intro y hy rest
        obtain ⟨x, hx, rfl⟩ := List.mem_map.mp hy
        have hlx := hl x hx
        cases hf : fromUtf8 x with
        | none =>
          have hd : varintDecode 64 (varint 64 x.length ++ x ++ rest) = some (x.length, x ++ rest) := by
            rw [List.append_assoc, varintDecode_varint _ _ (by simp) (lt_64_of_lt_bits hlx)]
          have hx := C100_bad_string t _ x rest hd (fun s hs => by
            rw [← hs, fromUtf8_utf8] at hf; simp at hf)
          rw [de] at hx
          exact exec_orDefault_err t .string default (execAt_err_of_bind hx)
        | some s =>
          have hs := utf8_of_fromUtf8 hf
          subst hs
          have hx := Prog.execAt_of_run (de_wire t hm .string trivial (.str s)
            (by simpa [Has] using hlx) .eof rest)
          rw [de] at hx
          obtain ⟨a, ha, hx⟩ := execAt_ok_of_bind hx
          simp only [Val.str.injEq] at ha
          subst ha
          exact exec_orDefault_ok t .string default hx) more
    simpa [List.flatMap_map, Function.comp_def] using h
  · simp only
    cases hf : fromUtf8 x with
    | none => exact .inr ⟨fun s hs => by rw [← hs, fromUtf8_utf8] at hf; simp at hf, rfl⟩
    | some s => exact .inl (utf8_of_fromUtf8 hf)

example (t : Target) (hm : 4096 ≤ t.memLimit) : ∃ replaced : List UInt8 → String,
    (catchVec (orDefault (.plain .string) "?")).exec t [3, 1, 97, 2, 255, 255, 1, 98, 9]
      = (.ok (([[97], [255, 255], [98]] : List (List UInt8)).map replaced), [9]) ∧
    ∀ x, utf8 (replaced x) = x ∨ (∀ s, utf8 s ≠ x) ∧ replaced x = "?" := by
  have hb : 3 < 2 ^ t.ptr.bits := by cases t.ptr <;> decide
  rw [show ([3, 1, 97, 2, 255, 255, 1, 98, 9] : List UInt8)
    = varint 64 ([[97], [255, 255], [98]] : List (List UInt8)).length
      ++ (([[97], [255, 255], [98]] : List (List UInt8)).flatMap
        (fun x => varint 64 x.length ++ x) ++ [9]) by decide +kernel]
  refine C101_isolated_string t hm "?" [[97], [255, 255], [98]] hb (fun x hx => ?_) [9]
  refine Nat.lt_of_le_of_lt (?_ : x.length ≤ 3) hb
  simp at hx
  rcases hx with rfl | rfl | rfl <;> simp

/-! ## Leaving out what cannot be read -/

/-- A visitor that goes on after a failed `next_element` gets every element of a list
of booleans that is one, and is told the end after the announced number. -/
theorem C101_skip_elements (t : Target) (bytes : List UInt8)
    (hb : bytes.length < 2 ^ t.ptr.bits) (more : List UInt8) :
    (skipVec (.plain .bool)).exec t (varint 64 bytes.length ++ (bytes ++ more))
      = (.ok (bytes.filterMap boolOf), more) := by
  rw [skipVec, CatchImpl.exec, CatchImpl.run,
    Prog.execAt_of_run (exec_u64_varint t .eof _ (lt_64_of_lt_bits hb) _)]
  simp only [thenOk, thenWith, asUsize_ofNat hb]
  have h := run_skipVecLoop (t := t) (i := .bool) (bytes.map fun b => ([b], boolOf b)) (by
    intro x hx
    obtain ⟨b, -, rfl⟩ := List.mem_map.mp hx
    exact readsAs_bool t b) (bytes.length + 1) (by simp) [] more
  simpa [List.flatMap_map, List.filterMap_map, Function.comp_def] using h

/-- The same for the entries of a map of which the key or the value is bad. -/
theorem C101_skip_entries (t : Target) (entries : List (UInt8 × UInt8))
    (hb : entries.length < 2 ^ t.ptr.bits) (more : List UInt8) :
    (skipMap (.plain .bool) (.plain .bool)).exec t
        (varint 64 entries.length ++ (entries.flatMap (fun e => [e.1, e.2]) ++ more))
      = (.ok (entries.filterMap fun e =>
          (boolOf e.1).bind fun k => (boolOf e.2).map fun v => (k, v)), more) := by
  rw [skipMap, CatchImpl.exec, CatchImpl.run,
    Prog.execAt_of_run (exec_u64_varint t .eof _ (lt_64_of_lt_bits hb) _)]
  simp only [thenOk, thenWith, asUsize_ofNat hb]
  have h := run_skipMapLoop (t := t) (i := .bool) (j := .bool)
    (entries.map fun e => (([e.1], boolOf e.1), ([e.2], boolOf e.2))) (by
      intro x hx
      obtain ⟨e, -, rfl⟩ := List.mem_map.mp hx
      exact readsAs_bool t e.1) (by
      intro x hx
      obtain ⟨e, -, rfl⟩ := List.mem_map.mp hx
      exact readsAs_bool t e.2) (entries.length + 1) (by simp) [] more
  simpa [List.flatMap_map, List.filterMap_map, Function.comp_def] using h

/-- And for the fields of a struct: a bad one does not shift the names of the others. -/
theorem C101_skip_fields (t : Target) (name : String) (fields : List (String × UInt8))
    (more : List UInt8) :
    (skipFields name (fields.map (·.1)) (.plain .bool)).exec t (fields.map (·.2) ++ more)
      = (.ok (fields.filterMap fun f => (boolOf f.2).map fun v => (f.1, v)), more) := by
  have hm : fields.flatMap (fun f => [f.2]) = fields.map (·.2) := by
    induction fields with
    | nil => rfl
    | cons f fs ih => rw [List.flatMap_cons, ih]; rfl
  rw [skipFields, CatchImpl.exec, CatchImpl.run]
  have h := run_skipFieldsLoop (t := t) (i := .bool) (fields.map fun f => (f.1, [f.2], boolOf f.2)) (by
    intro x hx
    obtain ⟨e, -, rfl⟩ := List.mem_map.mp hx
    exact readsAs_bool t e.2) ((fields.map (·.1)).length + 1) (by simp) [] more
  simpa [List.flatMap_map, List.filterMap_map, Function.comp_def, hm] using h

example : (skipVec (.plain .bool)).exec ⟨.w64, 4096⟩ [4, 1, 0, 77, 0, 5]
      = (.ok [true, false, false], [5]) ∧
    (skipMap (.plain .bool) (.plain .bool)).exec ⟨.w64, 4096⟩ [3, 1, 1, 9, 0, 0, 1, 5]
      = (.ok [(true, true), (false, true)], [5]) ∧
    (skipFields "S" ["a", "b", "c"] (.plain .bool)).exec ⟨.w64, 4096⟩ [1, 9, 0, 5]
      = (.ok [("a", true), ("c", false)], [5]) := by
  decide +kernel

/-! ## Enums -/

/-- What an implementation makes of the data of a variant: itself, or the default. -/
def dataOr {β : Type} (default : β) : Except DeErr β → Except DeErr β
  | .ok v => .ok v
  | .error _ => .ok default

/-- A `visit_enum` that replaces the data of a variant if they are bad: it gets the
data, or the default with the reader after the first bad byte, of a newtype, a tuple
and a struct variant alike. Later members are not read. -/
theorem C101_payload (t : Target) (default : Bool) (index data : UInt8) (more : List UInt8) :
    (CatchImpl.enum "E" ["A"] (.plain .u8)
        (fun _ => .newtype (.plain .bool) (dataOr default)) .error).exec t (index :: data :: more)
      = (.ok ((boolOf data).getD default), more) ∧
    (boolOf data = none → ∀ len fuel, 0 < len →
      (CatchImpl.enum "E" ["A"] (.plain .u8)
        (fun _ => .tuple len (fun _ => catchVecLoop (.plain .bool) (fuel + 1) [])
          (dataOr [default])) .error).exec t (index :: data :: more)
        = (.ok [default], more)) ∧
    (boolOf data = none → ∀ names,
      (CatchImpl.enum "E" ["A"] (.plain .u8)
        (fun _ => .struct ("a" :: names) (.key fun _ => .value (.plain .bool) fun
          | .ok b => .ok b
          | .error e => .error e) (dataOr default)) .error).exec t (index :: data :: more)
        = (.ok default, more)) := by
  have hi : Prog.execAt t ((Impl.u8).run t) (index :: data :: more) = (.ok index, data :: more) := by
    rw [Impl.run]; rfl
  have hd := readsAs_bool t data
  refine ⟨?_, fun hn len fuel hl => ?_, fun hn names => ?_⟩
  · rw [CatchImpl.exec, CatchImpl.run, CatchImpl.run, hi]
    simp only [thenWith, CatchVariant.run, CatchImpl.run]
    cases hb : boolOf data with
    | some v =>
      rw [hb] at hd
      have := hd more
      rw [List.singleton_append] at this
      rw [this]
      rfl
    | none =>
      rw [hb] at hd
      obtain ⟨e, this⟩ := hd more
      rw [List.singleton_append] at this
      rw [this]
      rfl
  · rw [hn] at hd
    obtain ⟨e, hd⟩ := hd more
    rw [List.singleton_append] at hd
    rw [CatchImpl.exec, CatchImpl.run, CatchImpl.run, hi]
    simp only [thenWith, CatchVariant.run]
    rw [catchVecLoop, CatchSeq.run, if_pos hl, CatchImpl.run, hd]
    simp only [thenWith, Except.map, CatchSeq.run, dataOr, returnWith]
  · rw [hn] at hd
    obtain ⟨e, hd⟩ := hd more
    rw [List.singleton_append] at hd
    rw [CatchImpl.exec, CatchImpl.run, CatchImpl.run, hi]
    simp only [thenWith, CatchVariant.run, CatchFields.run, CatchImpl.run]
    rw [hd]
    simp only [dataOr, returnWith]

/-- A `visit_enum` that replaces the whole value if the variant is bad gets its default, with
the reader after the variant; the data of the variant, whatever they are, are left there. -/
theorem C101_index (t : Target) (default : Bool) (index : UInt8) (more : List UInt8) :
    (CatchImpl.enum "E" ["A"] (.plain .bool) (fun b => .unit (.ok b))
        (fun _ => .ok default)).exec t (index :: more)
      = (.ok ((boolOf index).getD default), more) := by
  have hd := readsAs_bool t index
  rw [CatchImpl.exec, CatchImpl.run, CatchImpl.run]
  cases hb : boolOf index with
  | some v =>
    rw [hb] at hd
    have := hd more
    rw [List.singleton_append] at this
    rw [this]
    rfl
  | none =>
    rw [hb] at hd
    obtain ⟨e, this⟩ := hd more
    rw [List.singleton_append] at this
    rw [this]
    rfl

example : boolOf 9 = none ∧ boolOf 1 = some true := by decide


/-- An enum is not isolated like that. A writer whose enum has got a second variant
sends `[A(9), B(0), A(8)]`; a reader that replaces the variant it does not know gets
`[A(9), default, A(0)]`: the data of `B` are read as `A(0)`, which nobody sent, and
`8` is left for whatever is read next. -/
theorem C101_not_isolated (t : Target) (default : Val) :
    ∃ (old new : Ty) (a9 b0 a8 a0 : Val),
      Supported old ∧ Supported new ∧ Has t old a9 ∧ Has t old a8 ∧ Has t new a9 ∧ Has t new b0 ∧
      Has t new a8 ∧ a0 ≠ a9 ∧ a0 ≠ b0 ∧ a0 ≠ a8 ∧
      (catchVec (orDefault (.plain (implOf old)) default)).exec t
          (Ser.toVec (.seq (some 3) [a9, b0, a8])).1
        = (.ok [a9, default, a0], [8]) := by
  refine ⟨.enum "E" [("A", .newtype .u8)], .enum "E" [("A", .newtype .u8), ("B", .newtype .u8)],
    .newtypeVariant "E" 0 "A" (.u8 9), .newtypeVariant "E" 1 "B" (.u8 0),
    .newtypeVariant "E" 0 "A" (.u8 8), .newtypeVariant "E" 0 "A" (.u8 0), ?_, ?_, ?_, ?_, ?_, ?_,
    ?_, ?_, ?_, ?_, ?_⟩
  · simp [Supported, VariantsSupported, PayloadSupported]
  · simp [Supported, VariantsSupported, PayloadSupported]
  · simp [Has, HasVariant, HasPayload]
  · simp [Has, HasVariant, HasPayload]
  · simp [Has, HasVariant, HasPayload]
  · simp [Has, HasVariant, HasPayload]
  · simp [Has, HasVariant, HasPayload]
  · simp
  · simp
  · simp
  · obtain ⟨w, l⟩ := t
    cases w <;> rfl

/-! ## What it costs -/

/-- Nothing tells such a list that the data have ended: it gets as long as its input
announces, up to `2^64 - 1` elements for nine bytes of input. -/
theorem C101_amplified (t : Target) (ty : Ty) (hd : DistinctFields ty)
    (e : DeErr) (h : Prog.run t (de t ty) [] = .err e) (default : Val) (n : Nat)
    (hn : n < 2 ^ t.ptr.bits) :
    (varint 64 n).length ≤ 9 ∧
    (catchVec (orDefault (.plain (implOf ty)) default)).exec t (varint 64 n)
      = (.ok (List.replicate n default), []) := by
  have hn64 := lt_64_of_lt_bits hn
  refine ⟨?_, ?_⟩
  · rw [length_varint, varintLen]
    omega
  · have hr : (orDefault (.plain (implOf ty)) default).exec t [] = (.ok default, []) := by
      rw [Prog.execAt_fst] at h
      cases hx : Prog.execAt t (de t ty) [] with
      | mk o r =>
        rw [hx] at h
        cases o with
        | ok a => simp [withLeft] at h
        | err e' =>
          have h0 := Prog.execAt_nil t (de t ty)
          rw [hx] at h0
          simp only at h0
          subst h0
          exact exec_orDefault_err t (implOf ty) default (by rw [run_implOf t ty hd, hx])
        | panic q => simp [withLeft] at h
    have hu := Prog.execAt_of_run (exec_u64_varint t .eof n hn64 [])
    rw [List.append_nil] at hu
    rw [catchVec, CatchImpl.exec, CatchImpl.run, hu]
    simp only [thenOk, thenWith, asUsize_ofNat hn]
    rw [run_catchVecLoop_short hr n _ (by omega)]
    simp

/-- Strings are such elements: nine bytes make a list of `2^64 - 1` of them. -/
example (t : Target) (ht : t.ptr = .w64) (default : Val) : ∃ bs : List UInt8, bs.length ≤ 9 ∧
    (catchVec (orDefault (.plain (implOf .string)) default)).exec t bs
      = (.ok (List.replicate (2 ^ 64 - 1) default), []) :=
  ⟨varint 64 (2 ^ 64 - 1), C101_amplified t .string trivial .read rfl default _
    (by rw [ht]; decide)⟩

end Dlhn.Props
