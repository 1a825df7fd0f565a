import Verif.Proof.Header
/-!
# C30-C33, C60 and the I/O properties for headers

`Prog.run t (Header.deserialize size d) bs` is `deserialize_header` on the byte
slice `bs`, on a target `t`, with `size_of::<Header>() = size` and a stack that
has room for `d` nested calls. The hypotheses `hmem`, `hptr` say that the target
can allocate a vector of 65535 headers, the largest the decoder asks for.
-/
namespace Dlhn.Props

open Spec

/-- Sample: an optional tuple of an array of strings, an enum and a map. -/
def sampleHeader : Header :=
  .optional (.tuple [.array .string, .enum [.unit, .int32, .tuple []], .map .dateTime])

example : Countable sampleHeader ∧ depth sampleHeader = 4 := by
  simp [sampleHeader, Countable, AllCountable, depth, depthAll]

example : headerWire sampleHeader = [1, 21, 3, 20, 18, 24, 3, 0, 10, 21, 0, 23, 26] := by
  decide +kernel

/-! ## C30 round trip -/

/-- Serializing a header writes its canonical bytes. -/
theorem C30_encoding (h : Header) (hc : Countable h) : h.toVec = (headerWire h, .ok ()) :=
  Header.serialize_exec h hc

/-- Decoding the serialization returns the header and leaves the suffix. -/
theorem C30_roundtrip (t : Target) (size d : Nat) (hmem : 65535 * size ≤ t.memLimit)
    (hptr : 65535 * size ≤ t.isizeMax) (h : Header) (hc : Countable h) (hd : depth h ≤ d) :
    ∃ enc, h.toVec = (enc, .ok ()) ∧
      ∀ rest, Prog.run t (Header.deserialize size d) (enc ++ rest) = .ok (h, rest) :=
  ⟨headerWire h, C30_encoding h hc, fun rest =>
    Header.exec_grammar ⟨hmem, hptr⟩ .eof h _ (Header.headerBytes_wire h hc) d hd rest⟩

/-- Different headers have different serializations, and none is a prefix of
another. -/
theorem C30_prefix_free (h h' : Header) (hc : Countable h) (hc' : Countable h')
    (hp : h.toVec.1 <+: h'.toVec.1) : h = h' := by
  obtain ⟨e, a1, a2⟩ := C30_roundtrip ⟨.w64, 0⟩ 0 (depth h + depth h') (by simp) (by simp) h hc
    (by omega)
  obtain ⟨e', b1, b2⟩ := C30_roundtrip ⟨.w64, 0⟩ 0 (depth h + depth h') (by simp) (by simp) h' hc'
    (by omega)
  rw [a1, b1] at hp
  obtain ⟨s, rfl⟩ := hp
  have b2 := b2 []
  rw [List.append_nil, a2] at b2
  simp only [Outcome.ok.injEq, Prod.mk.injEq] at b2
  exact b2.1

/-! ## C31 the grammar -/

/-- Accepted are exactly the byte strings of the grammar. -/
theorem C31_accepts (t : Target) (size d : Nat) (hmem : 65535 * size ≤ t.memLimit)
    (hptr : 65535 * size ≤ t.isizeMax) (bs rest : List UInt8) (hd : bs.length < d) (h : Header) :
    Prog.run t (Header.deserialize size d) bs = .ok (h, rest) ↔
      ∃ enc, bs = enc ++ rest ∧ HeaderBytes h enc := by
  constructor
  · exact Header.exec_sound t .eof size d bs h rest
  · rintro ⟨enc, rfl, g⟩
    rw [List.length_append] at hd
    have := Header.depth_le h enc g
    exact Header.exec_grammar ⟨hmem, hptr⟩ .eof h enc g d (by omega) rest

/-- Whatever the target and the stack, only headers of the grammar are returned. -/
theorem C31_sound (t : Target) (size d : Nat) (bs rest : List UInt8) (h : Header)
    (hx : Prog.run t (Header.deserialize size d) bs = .ok (h, rest)) :
    ∃ enc, bs = enc ++ rest ∧ HeaderBytes h enc :=
  Header.exec_sound t .eof size d bs h rest hx

/-- A byte string denotes at most one header, and no two headers have byte
strings one of which continues the other. -/
theorem C31_unambiguous (h h' : Header) (bs bs' r r' : List UInt8) (g : HeaderBytes h bs)
    (g' : HeaderBytes h' bs') (he : bs ++ r = bs' ++ r') : h = h' ∧ bs = bs' := by
  have a := (C31_accepts ⟨.w64, 0⟩ 0 ((bs ++ r).length + 1) (by simp) (by simp) (bs ++ r) r
    (Nat.lt_succ_self _) h).mpr ⟨bs, rfl, g⟩
  have b := (C31_accepts ⟨.w64, 0⟩ 0 ((bs ++ r).length + 1) (by simp) (by simp) (bs ++ r) r'
    (Nat.lt_succ_self _) h').mpr ⟨bs', he, g'⟩
  rw [a] at b
  simp only [Outcome.ok.injEq, Prod.mk.injEq] at b
  obtain ⟨rfl, rfl⟩ := b
  exact ⟨rfl, List.append_cancel_right he⟩

/-- The call returns, with one stack frame per input byte and one more. -/
theorem C31_returns (t : Target) (size d : Nat) (hmem : 65535 * size ≤ t.memLimit)
    (hptr : 65535 * size ≤ t.isizeMax) (bs : List UInt8) (hd : bs.length < d) :
    (Prog.run t (Header.deserialize size d) bs).returns := by
  cases hx : Prog.run t (Header.deserialize size d) bs with
  | ok a => trivial
  | err e => trivial
  | panic q => exact absurd hx (Header.exec_no_panic ⟨hmem, hptr⟩ .eof d bs hd q)

/-- `InvalidData` is reported exactly for the byte strings that no continuation
turns into a header. -/
theorem C31_invalid (t : Target) (size d : Nat) (hmem : 65535 * size ≤ t.memLimit)
    (hptr : 65535 * size ≤ t.isizeMax) (bs : List UInt8) (hd : bs.length < d) :
    Prog.run t (Header.deserialize size d) bs = .err .invalidData ↔
      ∀ more enc h, enc <+: bs ++ more → ¬ HeaderBytes h enc := by
  constructor
  · rintro hx more enc h ⟨r, hr⟩ g
    have h1 := Prog.exec_err_append t .eof (Header.strict_deserialize size d) hx (by simp) more
    have h2 := Header.exec_grammar ⟨hmem, hptr⟩ .eof h enc g (d + depth h) (by omega) r
    rw [hr, Header.exec_deeper (by rw [h1]; simp), h1] at h2
    cases h2
  · intro hn
    cases hx : Prog.run t (Header.deserialize size d) bs with
    | ok a =>
      obtain ⟨enc, he, g⟩ := C31_sound t size d bs a.2 a.1 hx
      exact absurd g (hn [] enc a.1 ⟨a.2, by rw [← he, List.append_nil]⟩)
    | err e =>
      rcases Header.exec_err t size d bs e hx with ⟨-, more, h, -, g⟩ | rfl
      · exact absurd g (hn more _ h (List.prefix_refl _))
      · rfl
    | panic q => exact absurd hx (Header.exec_no_panic ⟨hmem, hptr⟩ .eof d bs hd q)

/-- `UnexpectedEof` is reported exactly for the strict prefixes of headers. -/
theorem C31_truncated (t : Target) (size d : Nat) (hmem : 65535 * size ≤ t.memLimit)
    (hptr : 65535 * size ≤ t.isizeMax) (bs : List UInt8) (hd : bs.length < d) :
    Prog.run t (Header.deserialize size d) bs = .err .unexpectedEof ↔
      ∃ more h, more ≠ [] ∧ HeaderBytes h (bs ++ more) := by
  constructor
  · intro hx
    rcases Header.exec_err t size d bs _ hx with ⟨-, h⟩ | h
    · exact h
    · cases h
  · rintro ⟨more, h, hm, g⟩
    cases hx : Prog.run t (Header.deserialize size d) bs with
    | ok a =>
      obtain ⟨enc, he, g'⟩ := C31_sound t size d bs a.2 a.1 hx
      have := (C31_unambiguous h a.1 (bs ++ more) enc [] (a.2 ++ more) g g' (by
        rw [he]; simp)).2
      rw [he, List.append_assoc] at this
      have := congrArg List.length this
      simp only [List.length_append] at this
      have hl : 0 < more.length := List.length_pos_iff.mpr hm
      omega
    | err e =>
      rcases Header.exec_err t size d bs e hx with ⟨rfl, -⟩ | rfl
      · rfl
      · exact absurd g ((C31_invalid t size d hmem hptr bs hd).mp hx more _ h (List.prefix_refl _))
    | panic q => exact absurd hx (Header.exec_no_panic ⟨hmem, hptr⟩ .eof d bs hd q)

/-- The unused codes, at the start of the input. -/
theorem C31_unknown_code (t : Target) (size d : Nat) (b : UInt8) (bs : List UInt8)
    (hb : b = 7 ∨ b = 12 ∨ b = 22 ∨ 26 < b) :
    Prog.run t (Header.deserialize size (d + 1)) (b :: bs) = .err .invalidData := by
  have hk : Header.kind b = .bad := by
    rcases Header.kind_cases b with ⟨h, hk⟩ | h | h | h | h | h | h
    · exfalso
      have := Header.kind_scalar.mp hk
      cases h <;> simp only [scalarCode, reduceCtorEq, Option.some.injEq] at this <;>
        subst this <;> revert hb <;> decide
    all_goals first
      | exact h
      | (exfalso; subst h; revert hb; decide)
  rw [Prog.run, Header.exec_succ_cons, hk]
  rfl

/-- Counts need not be in shortest form. -/
example : HeaderBytes (.tuple [.unit, .optional .uint16]) [21, 0x82, 0, 0, 1, 4] :=
  .tuple [.unit, .optional .uint16] [0x82, 0] [0, 1, 4] (by unfold IsCount; decide +kernel)
    (.cons .unit _ [0] _ (.scalar _ _ rfl)
      (.cons (.optional .uint16) _ [1, 4] _ (.optional _ _ (.scalar _ _ rfl)) .nil))
example : ∃ more h, more ≠ [] ∧ HeaderBytes h ([1, 20] ++ more) :=
  ⟨[3], _, by simp, .optional _ _ (.array _ _ (.scalar .uint8 _ rfl))⟩

/-! ## C32 counts of 65536 and more -/

/-- What is written for too many members: the count modulo 65536. -/
theorem C32_wraps (hs : List Header) (hc : AllCountable hs) :
    (Header.tuple hs).toVec
      = (21 :: (varint 16 (hs.length % 65536) ++ headersWire hs), .ok ()) ∧
    (Header.enum hs).toVec
      = (24 :: (varint 16 (hs.length % 65536) ++ headersWire hs), .ok ()) := by
  constructor <;>
  · rw [Header.toVec, Header.serialize, WProg.exec_andThen_ok (Header.put_exec _),
      WProg.exec_andThen_ok (Header.putCount_exec_mod _), Header.serializeAll_exec hs hc]
    rfl

/-- Serialization reports success, but the decoder returns a header with the
first `n % 65536` members and leaves the others unread. -/
theorem C32_misread (t : Target) (size d : Nat) (hmem : 65535 * size ≤ t.memLimit)
    (hptr : 65535 * size ≤ t.isizeMax) (hs : List Header) (hc : AllCountable hs)
    (hd : depthAll hs < d) (rest : List UInt8) :
    Prog.run t (Header.deserialize size d) ((Header.tuple hs).toVec.1 ++ rest)
      = .ok (.tuple (hs.take (hs.length % 65536)),
          headersWire (hs.drop (hs.length % 65536)) ++ rest) := by
  have happ : ∀ a b : List Header, headersWire (a ++ b) = headersWire a ++ headersWire b := by
    intro a b
    induction a with
    | nil => rfl
    | cons x a ih => simp only [List.cons_append, headersWire, ih, List.append_assoc]
  have hall : ∀ a b : List Header, AllCountable (a ++ b) → AllCountable a := by
    intro a b
    induction a with
    | nil => exact fun _ => trivial
    | cons x a ih => exact fun h => ⟨h.1, ih h.2⟩
  have hdep : ∀ a b : List Header, depthAll a ≤ depthAll (a ++ b) := by
    intro a b
    induction a with
    | nil => exact Nat.zero_le _
    | cons x a ih => simp only [List.cons_append, depthAll]; omega
  have hsplit : hs = hs.take (hs.length % 65536) ++ hs.drop (hs.length % 65536) :=
    (List.take_append_drop _ _).symm
  have hlen : (hs.take (hs.length % 65536)).length = hs.length % 65536 := by
    rw [List.length_take]; exact Nat.min_eq_left (Nat.mod_le _ _)
  rw [(C32_wraps hs hc).1]
  simp only
  conv => lhs; rw [hsplit, happ, ← hsplit]
  have hc' : Countable (.tuple (hs.take (hs.length % 65536))) :=
    ⟨by rw [hlen]; exact Nat.mod_lt _ (by decide), hall _ _ (by rw [← hsplit]; exact hc)⟩
  have hd' : depth (.tuple (hs.take (hs.length % 65536))) ≤ d := by
    have := hdep (hs.take (hs.length % 65536)) (hs.drop (hs.length % 65536))
    rw [← hsplit] at this
    simp only [depth]; omega
  have := Header.exec_grammar ⟨hmem, hptr⟩ .eof _ _ (Header.headerBytes_wire _ hc') d hd'
    (headersWire (hs.drop (hs.length % 65536)) ++ rest)
  rw [headerWire, hlen] at this
  rw [Prog.run, ← this]
  simp

/-- No input at all decodes to such a header. -/
theorem C32_never (t : Target) (size d : Nat) (bs rest : List UInt8) (hs : List Header)
    (hl : 65536 ≤ hs.length) :
    Prog.run t (Header.deserialize size d) bs ≠ .ok (.tuple hs, rest) ∧
    Prog.run t (Header.deserialize size d) bs ≠ .ok (.enum hs, rest) := by
  constructor
  · intro hx
    obtain ⟨enc, -, g⟩ := C31_sound t size d bs rest _ hx
    cases g with
    | scalar _ c hc => cases hc
    | tuple _ cnt _ hc _ =>
      have := (Header.exec_decodeU16_isCount ⟨.w64, 0⟩ .eof hc []).1
      omega
  · intro hx
    obtain ⟨enc, -, g⟩ := C31_sound t size d bs rest _ hx
    cases g with
    | scalar _ c hc => cases hc
    | enum _ cnt _ hc _ =>
      have := (Header.exec_decodeU16_isCount ⟨.w64, 0⟩ .eof hc []).1
      omega

example : AllCountable (List.replicate 65536 .unit) ∧
    65536 ≤ (List.replicate 65536 Header.unit).length := by
  constructor
  · have : ∀ n, AllCountable (List.replicate n .unit) := by
      intro n
      induction n with
      | zero => trivial
      | succ n ih => exact ⟨trivial, ih⟩
    exact this _
  · rw [List.length_replicate]; decide

/-! ## C33 stack -/

/-- On the bytes of a header, the stack needed is the nesting depth of the
header: `depth h` frames suffice and fewer are exhausted. -/
theorem C33_exact (t : Target) (size : Nat) (hmem : 65535 * size ≤ t.memLimit)
    (hptr : 65535 * size ≤ t.isizeMax) (h : Header) (enc : List UInt8) (g : HeaderBytes h enc)
    (rest : List UInt8) (d : Nat) :
    (depth h ≤ d → Prog.run t (Header.deserialize size d) (enc ++ rest) = .ok (h, rest)) ∧
    (d < depth h →
      Prog.run t (Header.deserialize size d) (enc ++ rest) = .panic .stackOverflow) :=
  ⟨fun hd => Header.exec_grammar ⟨hmem, hptr⟩ .eof h enc g d hd rest,
   fun hd => Header.exec_too_deep ⟨hmem, hptr⟩ .eof h enc g d hd rest⟩

/-- On any input, one frame more than there are bytes suffices: deeper stacks
give the same result. -/
theorem C33_bound (t : Target) (size : Nat) (hmem : 65535 * size ≤ t.memLimit)
    (hptr : 65535 * size ≤ t.isizeMax) (bs : List UInt8) (d : Nat) (hd : bs.length < d) :
    Prog.run t (Header.deserialize size d) bs ≠ .panic .stackOverflow ∧
    Prog.run t (Header.deserialize size d) bs
      = Prog.run t (Header.deserialize size (bs.length + 1)) bs := by
  have h := fun d hd => Header.exec_no_panic (size := size) ⟨hmem, hptr⟩ .eof d bs hd
    .stackOverflow
  refine ⟨h d hd, ?_⟩
  have := Header.exec_deeper (h (bs.length + 1) (by omega)) (d - (bs.length + 1))
  rwa [show bs.length + 1 + (d - (bs.length + 1)) = d by omega] at this

/-- Every stack is exhausted by some input no longer than the stack is deep: `d`
frames by `d` bytes. -/
theorem C33_exhausted (t : Target) (size d : Nat) (rest : List UInt8) :
    Prog.run t (Header.deserialize size d) (List.replicate d 1 ++ rest)
      = .panic .stackOverflow := by
  induction d with
  | zero => rfl
  | succ d ih =>
    rw [Prog.run] at ih ⊢
    rw [List.replicate_succ, List.cons_append, Header.exec_succ_cons,
      show Header.kind 1 = .optional from rfl, Header.after, Prog.exec_bind, ih]
    rfl

/-- The same input is a header that a deeper stack accepts, once a scalar
follows. -/
theorem C33_exhausting_input_is_valid (t : Target) (size d : Nat) (rest : List UInt8) :
    ∃ h, Prog.run t (Header.deserialize size (d + 1)) (List.replicate d 1 ++ 0 :: rest)
      = .ok (h, rest) := by
  induction d with
  | zero => exact ⟨.unit, by rw [Prog.run]; exact Header.exec_succ_cons ..⟩
  | succ d ih =>
    obtain ⟨h, ih⟩ := ih
    refine ⟨.optional h, ?_⟩
    rw [Prog.run] at ih ⊢
    rw [List.replicate_succ, List.cons_append, Header.exec_succ_cons,
      show Header.kind 1 = .optional from rfl, Header.after, Prog.exec_bind, ih]
    rfl

/-! ## C60 memory -/

/-- Each request for memory is for at most 65535 headers, and there are at most
half as many requests as input bytes. -/
theorem C60_bound (t : Target) (fin : Ending) (size d : Nat) (bs : List UInt8) :
    (∀ n ∈ Prog.requests t fin (Header.deserialize size d) bs, n ≤ 65535 * size) ∧
    2 * (Prog.requests t fin (Header.deserialize size d) bs).length ≤ bs.length := by
  refine ⟨(Header.allocLe_deserialize size d).requests t fin bs, ?_⟩
  have := Header.paid_deserialize t fin size d bs
  omega

/-- For every `n` there is an input of `4 n` bytes for which `n` nested vectors of
65535 headers are requested before the decoder finds that the input is
truncated. -/
theorem C60_amplification (t : Target) (size n : Nat) (hmem : 65535 * size ≤ t.memLimit)
    (hptr : 65535 * size ≤ t.isizeMax) :
    ∃ bs : List UInt8, bs.length = 4 * n ∧
      Prog.requests t .eof (Header.deserialize size (n + 1)) bs = List.replicate n (65535 * size) ∧
      Prog.run t (Header.deserialize size (n + 1)) bs = .err .unexpectedEof := by
  refine ⟨(List.replicate n [21, 0xC0, 0xff, 0xff]).flatten, ?_,
    Header.requests_nested ⟨hmem, hptr⟩ .eof n, Header.exec_nested ⟨hmem, hptr⟩ .eof n⟩
  rw [List.length_flatten, List.map_replicate, List.sum_replicate_nat]
  simp [Nat.mul_comm]

/-! ## Readers and writers -/

/-- Decoding a header from any reader is decoding the bytes it delivers, except
that running out of data is reported as the reader's own error if it failed. -/
theorem C24_header (t : Target) (size d : Nat) (bufs : Nat → Nat) (s : Script) :
    (Prog.runScript t bufs (Header.deserialize size d) s).map (fun (h, s') => (h, s'.bytes))
      = (Prog.run t (Header.deserialize size d) s.bytes).mapErr
          (fun e => if e = .unexpectedEof then s.ending.shortErr else e) := by
  have h := Prog.runScript_spec t bufs (Header.strict_deserialize size d) s
  have he := Header.exec_fin t s.ending size d s.bytes
  have : Header.report s.ending = fun e => if e = .unexpectedEof then s.ending.shortErr else e := rfl
  rw [this] at he
  rw [Prog.run, ← he]
  cases hr : Prog.exec t s.ending (Header.deserialize size d) s.bytes with
  | ok a =>
    rw [hr] at h
    obtain ⟨s', h1, h2, -⟩ := h
    rw [h1, Outcome.map]; simp only [h2]
  | err e => rw [hr] at h; simp only at h; rw [h]; rfl
  | panic q => rw [hr] at h; simp only at h; rw [h]; rfl

/-- A reader that fails in the middle of a header has its error returned. -/
theorem C25_header (t : Target) (size d : Nat) (hmem : 65535 * size ≤ t.memLimit)
    (hptr : 65535 * size ≤ t.isizeMax) (bufs : Nat → Nat) (s : Script) (h : Header)
    (more : List UInt8) (hm : more ≠ []) (g : HeaderBytes h (s.bytes ++ more))
    (hd : s.bytes.length < d) (e : IoErr) (he : s.ending = .fail e) :
    Prog.runScript t bufs (Header.deserialize size d) s = .err e := by
  have hr := C24_header t size d bufs s
  rw [(C31_truncated t size d hmem hptr s.bytes hd).mpr ⟨more, h, hm, g⟩, he] at hr
  cases hx : Prog.runScript t bufs (Header.deserialize size d) s with
  | ok a => rw [hx] at hr; simp [Outcome.map, Outcome.mapErr] at hr
  | err e' => rw [hx] at hr; simpa [Outcome.map, Outcome.mapErr, Ending.shortErr] using hr
  | panic q => rw [hx] at hr; simp [Outcome.map, Outcome.mapErr] at hr

example : ∃ s : Script, s.ending = .fail (.other 5) ∧ s.bytes = [1, 21] :=
  ⟨[.data [1], .interrupted, .data [21], .fail (.other 5)], by decide⟩

/-- Short writes and interruptions do not change what is written for a header. -/
theorem C26_header (h : Header) (s : WScript)
    (hs : ∀ ev ∈ s, ev = .interrupted ∨ ∃ n, ev = .accept (n + 1)) :
    h.serialize.runScript s = h.toVec :=
  WProg.runScript_benign _ s hs

/-- On every writer, the header was written completely or its writer's error is
returned and a strict prefix was written. -/
theorem C27_header (h : Header) (s : WScript) :
    h.serialize.runScript s = h.toVec ∨
    ((∃ e, (h.serialize.runScript s).2 = .err e) ∧ (h.serialize.runScript s).1 <+: h.toVec.1 ∧
      (h.serialize.runScript s).1 ≠ h.toVec.1) :=
  WProg.runScript_prefix (Header.maps_serialize h) s

/-- A torn header is recognised as such. -/
theorem C28_header (t : Target) (size d : Nat) (hmem : 65535 * size ≤ t.memLimit)
    (hptr : 65535 * size ≤ t.isizeMax) (h : Header) (hc : Countable h) (s : WScript)
    (hd : h.toVec.1.length ≤ d) (hfail : (h.serialize.runScript s).2 ≠ .ok ()) :
    Prog.run t (Header.deserialize size d) (h.serialize.runScript s).1 = .err .unexpectedEof := by
  rw [C30_encoding h hc] at hd
  rcases C27_header h s with hx | ⟨-, ⟨more, hm⟩, hne⟩
  · rw [hx, C30_encoding h hc] at hfail; exact absurd rfl hfail
  · rw [C30_encoding h hc] at hm hne
    simp only at hm hne hd
    have hm0 : more ≠ [] := by
      rintro rfl
      rw [List.append_nil] at hm
      exact hne hm
    have hl : 0 < more.length := List.length_pos_iff.mpr hm0
    refine (C31_truncated t size d hmem hptr _ ?_).mpr
      ⟨more, h, hm0, by rw [hm]; exact Header.headerBytes_wire h hc⟩
    rw [← hm, List.length_append] at hd
    omega

example : (sampleHeader.serialize.runScript [.accept 1, .accept 0]).2 = .err .writeZero := by
  decide +kernel

end Dlhn.Props
