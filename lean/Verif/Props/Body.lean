import Verif.Proof.BodySer
import Verif.Proof.DeExact
import Verif.Proof.Relay
import Verif.Props.Io
/-!
# C35-C37, C39-C42, C61-C64: dynamic values

`Body.toVec mode b` is serializing the body `b` into a `Vec<u8>` in a build with
(`debug`) or without (`release`) overflow checks. `Prog.run t (Body.de t mode
size h) bs` is `Body::deserialize(&h, ..)` on the byte slice `bs`, on a target
`t`, with `size_of::<Body>() = size`.
-/
namespace Dlhn.Props

open Spec

/-- Sample header: a tuple of a map of arrays, an enum, an optional string and a
decimal. -/
def sampleShape : Header :=
  .tuple [.map (.array .uint16), .enum [.unit, .date], .optional .string, .bigDecimal]

/-- A body of that shape. -/
def sampleBody : Body :=
  .tuple [.map [("a", .array [.uint16 1, .uint16 300]), ("b", .array [])],
    .enum 1 (.date ⟨2022, 60⟩), .some (.string "hi"), .bigDecimal ⟨[15], 1⟩]

/-- Two allocations of two members and one of four are granted by `t`. -/
theorem sampleBody_meets (t : Target) (mode : BuildMode) (size : Nat)
    (h : t.allocate (4 * size) = Option.none) :
    Body.validate sampleShape sampleBody = true ∧ Exists t sampleBody ∧
      CleanDecimals sampleBody ∧ DatesFit mode sampleBody ∧ VectorsFit t size sampleBody := by
  have hsmall : ∀ n, n ≤ 4 → t.allocate (n * size) = Option.none := by
    intro n hn
    have : n * size ≤ 4 * size := Nat.mul_le_mul_right _ hn
    simp only [Target.allocate] at h ⊢
    split at h
    · cases h
    · split at h
      · cases h
      · rw [if_neg (by omega), if_neg (by omega)]
  have hp : parts sampleBody = [sampleBody,
      .map [("a", .array [.uint16 1, .uint16 300]), ("b", .array [])],
      .array [.uint16 1, .uint16 300], .uint16 1, .uint16 300, .array [],
      .enum 1 (.date ⟨2022, 60⟩), .date ⟨2022, 60⟩, .some (.string "hi"), .string "hi",
      .bigDecimal ⟨[15], 1⟩] := by
    simp [sampleBody, parts, partsAll, partsEntries]
  have hb : 4 < 2 ^ t.ptr.bits := by cases t.ptr <;> decide
  refine ⟨?_, ?_, ?_, ?_, ?_⟩
  · simp [sampleShape, sampleBody, Body.validate, Body.validateZip, Body.validateNth]
  · intro c hc
    rw [hp] at hc
    simp only [List.mem_cons, List.not_mem_nil, or_false] at hc
    have ha : (utf8 "a").length = 1 := by decide
    have hb' : (utf8 "b").length = 1 := by decide
    have hab : utf8 "a" < utf8 "b" := by decide
    have hhi : (utf8 "hi").length = 2 := by decide
    rcases hc with rfl | rfl | rfl | rfl | rfl | rfl | rfl | rfl | rfl | rfl | rfl <;>
      simp [LengthsFit, Ascending, sampleBody, ha, hb', hhi, hab] <;> cases t.ptr <;> decide
  · intro v hv hz
    rw [hp] at hv
    simp [sampleBody] at hv
    subst hv
    simp at hz
  · intro _ d hd
    rw [hp] at hd
    simp [sampleBody] at hd
    subst hd
    exact ⟨by decide, by decide⟩
  · intro bs hbs
    rw [hp] at hbs
    simp only [List.mem_cons, List.not_mem_nil, or_false, sampleBody] at hbs
    apply hsmall
    rcases hbs with hbs | hbs <;> simp at hbs
    · rcases hbs with rfl | rfl <;> simp
    · subst hbs; simp

/-! ## C35 round trip -/

/-- Serializing a body writes its wire form, in every build. -/
theorem C35_encoding (t : Target) (mode : BuildMode) (b : Body) (he : Exists t b)
    (hd : DatesFit mode b) : Body.toVec mode b = (bodyWire b, .ok ()) :=
  Body.exec_ser t mode b (fun c hc => (he c hc).1) hd

/-- Every body that validates against a header decodes under that header from
its serialization, leaving the suffix. -/
theorem C35_roundtrip (t : Target) (hm : 4096 ≤ t.memLimit) (mode : BuildMode) (size : Nat)
    (h : Header) (b : Body) (hv : Body.validate h b = true) (he : Exists t b)
    (hc : CleanDecimals b) (hd : DatesFit mode b) (hf : VectorsFit t size b) :
    ∃ enc, Body.toVec mode b = (enc, .ok ()) ∧
      ∀ rest, Prog.run t (Body.de t mode size h) (enc ++ rest) = .ok (b, rest) :=
  ⟨bodyWire b, C35_encoding t mode b he hd, fun rest =>
    Body.de_wire t mode size hm h b ((Body.validate_iff h b).mp hv) ⟨he, hc, hd, hf⟩ .eof rest⟩

example : ∃ enc, Body.toVec .debug sampleBody = (enc, .ok ()) ∧
    ∀ rest, Prog.run ⟨.w64, 4096⟩ (Body.de ⟨.w64, 4096⟩ .debug 56 sampleShape) (enc ++ rest)
      = .ok (sampleBody, rest) :=
  have ⟨h1, h2, h3, h4, h5⟩ := sampleBody_meets ⟨.w64, 4096⟩ .debug 56 (by decide)
  C35_roundtrip _ (by decide) _ _ _ _ h1 h2 h3 h4 h5

example : bodyWire sampleBody =
    [2, 1, 97, 2, 1, 172, 4, 1, 98, 0, 1, 44, 59, 1, 2, 104, 105, 1, 15, 2] := by
  decide +kernel

/-- Under one header, different bodies have different serializations and none is
a prefix of another: bodies can be stored back to back. -/
theorem C35_prefix_free (t : Target) (hm : 4096 ≤ t.memLimit) (mode : BuildMode) (size : Nat)
    (h : Header) (b b' : Body) (hv : Body.validate h b = true) (he : Exists t b)
    (hc : CleanDecimals b) (hd : DatesFit mode b) (hf : VectorsFit t size b)
    (hv' : Body.validate h b' = true) (he' : Exists t b')
    (hc' : CleanDecimals b') (hd' : DatesFit mode b') (hf' : VectorsFit t size b')
    (hp : (Body.toVec mode b).1 <+: (Body.toVec mode b').1) : b = b' := by
  obtain ⟨e, a1, a2⟩ := C35_roundtrip t hm mode size h b hv he hc hd hf
  obtain ⟨e', b1, b2⟩ := C35_roundtrip t hm mode size h b' hv' he' hc' hd' hf'
  rw [a1, b1] at hp
  obtain ⟨r, hr⟩ := hp
  have h1 := a2 r
  have h2 := b2 []
  simp only at hr
  rw [List.append_nil, ← hr, h1] at h2
  simp only [Outcome.ok.injEq, Prod.mk.injEq] at h2
  exact h2.1

/-! ## C36, C37 validation -/

/-- `validate` decides the structural relation `Conforms`. -/
theorem C37_validate (h : Header) (b : Body) : Body.validate h b = true ↔ Conforms h b :=
  Body.validate_iff h b

example : Conforms sampleShape sampleBody :=
  (C37_validate _ _).mp (sampleBody_meets ⟨.w64, 4096⟩ .debug 56 (by decide)).1

/-- Near misses: a tuple with a member too many, an enum index without a member,
an array with one element of another kind. -/
example : ¬ Conforms (.tuple [.unit]) (.tuple [.unit, .unit]) ∧
    ¬ Conforms (.tuple [.unit, .unit]) (.tuple [.unit]) ∧
    ¬ Conforms (.enum [.unit]) (.enum 1 .unit) ∧
    ¬ Conforms (.array .uint8) (.array [.uint8 1, .int8 1]) := by
  refine ⟨?_, ?_, ?_, ?_⟩ <;> rw [← C37_validate] <;>
    simp [Body.validate, Body.validateZip, Body.validateNth]

/-- Whatever the input, target and build: a body returned by the decoder has the
shape of the header and validates. -/
theorem C36_decoded_validates (t : Target) (mode : BuildMode) (size : Nat) (h : Header)
    (fin : Ending) (bs rest : List UInt8) (b : Body)
    (hx : Prog.exec t fin (Body.de t mode size h) bs = .ok (b, rest)) :
    Conforms h b ∧ Body.validate h b = true := by
  have := Body.returns_conforms t mode size h fin bs b rest hx
  exact ⟨this, (Body.validate_iff h b).mpr this⟩

example : ∃ b, Prog.run ⟨.w32, 4096⟩ (Body.de ⟨.w32, 4096⟩ .debug 56 (.array (.optional .int16)))
    [3, 0, 1, 1, 0] = .ok (b, []) :=
  ⟨.array [.none, .some (.int16 (-1)), .none], by
    obtain ⟨enc, h1, h2⟩ := C35_roundtrip ⟨.w32, 4096⟩ (by decide) .debug 56 (.array (.optional .int16))
      (.array [.none, .some (.int16 (-1)), .none]) (by simp [Body.validate])
      (fun c hc => by
          simp [parts, partsAll] at hc
          rcases hc with rfl | rfl | rfl | rfl | rfl <;> simp [LengthsFit] <;> decide)
      (fun v hv => by simp [parts, partsAll] at hv)
      (fun _ d hd => by simp [parts, partsAll] at hd)
      (fun bs hbs => by simp [parts, partsAll] at hbs; subst hbs; decide)
    have he : (Body.toVec .debug (.array [.none, .some (.int16 (-1)), .none])).1 = [3, 0, 1, 1, 0] := by
      simp only [Body.toVec, Body.ser, Body.serAll]
      decide +kernel
    rw [h1] at he
    have := h2 []
    rwa [show enc = _ from he] at this⟩

/-! ## C39 maps -/

/-- Entries of shape `h` in any order, with any duplicates, decode to the map
that holds for each key the value of its last occurrence, in ascending order of
the bytes of the keys. -/
theorem C39_last_wins (t : Target) (hm : 4096 ≤ t.memLimit) (mode : BuildMode) (size : Nat)
    (h : Header) (es : List (String × Body)) (hlen : es.length < 2 ^ 64)
    (hk : ∀ e ∈ es, (utf8 e.1).length < 2 ^ t.ptr.bits)
    (hv : ∀ e ∈ es, Body.validate h e.2 = true ∧ Exists t e.2 ∧ CleanDecimals e.2 ∧
      DatesFit mode e.2 ∧ VectorsFit t size e.2) (rest : List UInt8) :
    ∃ m, Prog.run t (Body.de t mode size (.map h)) (varint 64 es.length ++ entriesWire es ++ rest)
        = .ok (.map m, rest) ∧
      Ascending m ∧
      ∀ e, e ∈ m ↔ ∃ before after, es = before ++ e :: after ∧ ∀ x ∈ after, x.1 ≠ e.1 := by
  refine ⟨insertAll [] es, ?_, ascending_insertAll es List.Pairwise.nil, mem_insertAll es⟩
  rw [Prog.run, Body.de, List.append_assoc, Prog.bind_eq, Prog.exec_bind,
    show De.deU64 = De.io PrefixVarint.decodeU64 from rfl, De.exec_u64_varint _ _ _ hlen,
    Prog.next_ok, UInt64.toNat_ofNat', Nat.mod_eq_of_lt hlen]
  have := Body.exec_insertLoop t .eof (Body.de t mode size h) es [] rest hk fun e he r => by
    obtain ⟨h1, h2, h3, h4, h5⟩ := hv e he
    exact Body.de_wire t mode size hm h e.2 ((Body.validate_iff h e.2).mp h1) ⟨h2, h3, h4, h5⟩ .eof r
  exact De.exec_wrap t .eof _ Body.map _ _ _ this

/-- Every decoded map, at any depth and from any input, is in ascending key
order without duplicates. -/
theorem C39_sorted (t : Target) (mode : BuildMode) (size : Nat) (h : Header)
    (fin : Ending) (bs rest : List UInt8) (b : Body)
    (hx : Prog.exec t fin (Body.de t mode size h) bs = .ok (b, rest))
    (es : List (String × Body)) (hes : .map es ∈ parts b) : Ascending es := by
  obtain ⟨n, -, hg, -⟩ := Body.yields_body (.any t size) mode h fin bs b rest hx
  exact (hg.exist _ hes).2 es rfl

/-- Two orders of the same entries with distinct keys decode to the same map. -/
theorem C39_order_independent (t : Target) (hm : 4096 ≤ t.memLimit) (mode : BuildMode) (size : Nat)
    (h : Header) (es es' : List (String × Body)) (hlen : es.length < 2 ^ 64)
    (hk : ∀ e ∈ es, (utf8 e.1).length < 2 ^ t.ptr.bits)
    (hv : ∀ e ∈ es, Body.validate h e.2 = true ∧ Exists t e.2 ∧ CleanDecimals e.2 ∧
      DatesFit mode e.2 ∧ VectorsFit t size e.2)
    (hperm : es.Perm es') (hdist : es.Pairwise fun x y => x.1 ≠ y.1) (rest : List UInt8) :
    Prog.run t (Body.de t mode size (.map h)) (varint 64 es.length ++ entriesWire es ++ rest)
      = Prog.run t (Body.de t mode size (.map h))
          (varint 64 es'.length ++ entriesWire es' ++ rest) := by
  have hdist' : es'.Pairwise fun x y => x.1 ≠ y.1 :=
    (hperm.pairwise_iff fun h => Ne.symm h).mp hdist
  obtain ⟨m, h1, h2, h3⟩ := C39_last_wins t hm mode size h es hlen hk hv rest
  obtain ⟨m', h1', h2', h3'⟩ := C39_last_wins t hm mode size h es' (hperm.length_eq ▸ hlen)
    (fun e he => hk e (hperm.mem_iff.mpr he)) (fun e he => hv e (hperm.mem_iff.mpr he)) rest
  have key : ∀ l : List (String × Body), l.Pairwise (fun x y => x.1 ≠ y.1) → ∀ e,
      (∃ before after, l = before ++ e :: after ∧ ∀ x ∈ after, x.1 ≠ e.1) ↔ e ∈ l := by
    intro l hl e
    constructor
    · rintro ⟨before, after, rfl, -⟩; simp
    · intro he
      obtain ⟨before, after, rfl⟩ := List.append_of_mem he
      refine ⟨before, after, rfl, fun x hx => ?_⟩
      have := (List.pairwise_append.mp hl).2.1
      exact (List.rel_of_pairwise_cons this hx).symm
  have : m = m' := ascending_ext h2 h2' fun e => by
    rw [h3, h3', key es hdist, key es' hdist', hperm.mem_iff]
  rw [h1, h1', this]

/-- A concrete case: `b`, then `a`, then `b` again. -/
example : ∃ m, Prog.run ⟨.w64, 4096⟩ (Body.de ⟨.w64, 4096⟩ .debug 56 (.map .uint8))
      [3, 1, 98, 1, 1, 97, 2, 1, 98, 3] = .ok (.map m, []) ∧
    m = [("a", .uint8 2), ("b", .uint8 3)] := by
  obtain ⟨m, h1, h2, h3⟩ := C39_last_wins ⟨.w64, 4096⟩ (by decide) .debug 56 .uint8
    [("b", .uint8 1), ("a", .uint8 2), ("b", .uint8 3)] (by decide)
    (fun e he => by simp at he; rcases he with rfl | rfl | rfl <;> decide)
    (fun e he => by
      simp at he
      rcases he with rfl | rfl | rfl <;>
        refine ⟨rfl, fun c hc => ?_, fun v hv => ?_, fun _ d hd => ?_, fun bs hbs => ?_⟩ <;>
        simp_all [parts, LengthsFit]) []
  have he : varint 64 [("b", Body.uint8 1), ("a", .uint8 2), ("b", .uint8 3)].length ++
      entriesWire [("b", .uint8 1), ("a", .uint8 2), ("b", .uint8 3)] ++ []
        = [3, 1, 98, 1, 1, 97, 2, 1, 98, 3] := by decide +kernel
  rw [he] at h1
  refine ⟨m, h1, ascending_ext h2 ?_ fun e => ?_⟩
  · have : utf8 "a" < utf8 "b" := by decide
    simp [Ascending, this]
  · rw [h3]
    constructor
    · rintro ⟨before, after, he, ha⟩
      rcases before with _ | ⟨x, _ | ⟨y, _ | ⟨z, before⟩⟩⟩
      · simp at he; obtain ⟨rfl, rfl⟩ := he; simp at ha
      · simp at he; obtain ⟨-, rfl, -⟩ := he; simp
      · simp at he; obtain ⟨-, -, rfl, -⟩ := he; simp
      · simp at he
    · intro he
      simp at he
      rcases he with rfl | rfl
      · exact ⟨[("b", .uint8 1)], [("b", .uint8 3)], rfl, by simp⟩
      · exact ⟨[("b", .uint8 1), ("a", .uint8 2)], [], rfl, by simp⟩

/-! ## C40 enums -/

/-- An index without a member is `Err(Read)`, whatever follows. -/
theorem C40_unknown_index (t : Target) (mode : BuildMode) (size : Nat) (hs : List Header)
    (bs rest : List UInt8) (i : Nat) (hi : varintDecode 32 bs = some (i, rest))
    (hn : hs.length ≤ i) : Prog.run t (Body.de t mode size (.enum hs)) bs = .err .read := by
  have hlt : i < 2 ^ 32 := De.varintDecode_lt (by simp) hi
  rw [Prog.run, Body.de, Prog.bind_eq, Prog.exec_bind, show De.deU32 = De.io PrefixVarint.decodeU32 from rfl,
    De.exec_u32, hi, De.ofDec, Prog.next_ok, UInt32.toNat_ofNat', Nat.mod_eq_of_lt hlt]
  have : ∀ (hs : List Header) (n : Nat), hs.length ≤ n →
      Body.deNth t mode size n hs = .done (.err .read) := by
    intro hs
    induction hs with
    | nil => intro n _; rw [Body.deNth]
    | cons h hs ih =>
      intro n hn
      rw [List.length_cons] at hn
      obtain ⟨n, rfl⟩ : ∃ k, n = k + 1 := ⟨n - 1, by omega⟩
      rw [Body.deNth, ih n (by omega)]
  rw [this hs i hn]
  rfl

/-- A known index is followed by the payload of that member. -/
theorem C40_known_index (t : Target) (mode : BuildMode) (size : Nat) (hs : List Header)
    (bs rest : List UInt8) (i : Nat) (hi : varintDecode 32 bs = some (i, rest)) (h : Header)
    (hh : hs[i]? = some h) :
    Prog.run t (Body.de t mode size (.enum hs)) bs =
      (Prog.run t (Body.de t mode size h) rest).map
        fun (b, r) => (.enum (UInt32.ofNat i) b, r) := by
  have hlt : i < 2 ^ 32 := De.varintDecode_lt (by simp) hi
  rw [Prog.run, Body.de, Prog.bind_eq, Prog.exec_bind, show De.deU32 = De.io PrefixVarint.decodeU32 from rfl,
    De.exec_u32, hi, De.ofDec, Prog.next_ok, UInt32.toNat_ofNat', Nat.mod_eq_of_lt hlt]
  have : ∀ (hs : List Header) (n : Nat), hs[n]? = some h →
      Body.deNth t mode size n hs = Body.de t mode size h := by
    intro hs
    induction hs with
    | nil => intro n hn; simp at hn
    | cons h' hs ih =>
      intro n hn
      cases n with
      | zero => simp at hn; rw [Body.deNth, hn]
      | succ n => rw [Body.deNth]; exact ih n (by simpa using hn)
  rw [this hs i hh, Prog.run]
  rw [Prog.bind_eq, Prog.exec_bind]
  cases hp : Prog.exec t .eof (Body.de t mode size h) rest with
  | ok a => rfl
  | err e => rfl
  | panic q => rfl

/-- Both cases, for a two-member enum. -/
example : varintDecode 32 [2, 7] = some (2, [7]) ∧ varintDecode 32 [1, 7] = some (1, [7]) := by
  decide +kernel

/-- So every decoded enum body names an existing member. -/
theorem C40_known (t : Target) (mode : BuildMode) (size : Nat) (hs : List Header) (fin : Ending)
    (bs rest : List UInt8) (i : UInt32) (b : Body)
    (hx : Prog.exec t fin (Body.de t mode size (.enum hs)) bs = .ok (.enum i b, rest)) :
    i.toNat < hs.length := by
  have := Body.returns_conforms t mode size _ fin bs _ rest hx
  cases this with
  | enum _ _ h _ hh _ => exact (List.getElem?_eq_some_iff.mp hh).1

/-! ## C41 truncation -/

/-- Every strict prefix of an input that decodes completely is `Err(Read)`. -/
theorem C41_truncation (t : Target) (mode : BuildMode) (size : Nat)
    (h : Header) (ht : t.ptr = .w64 ∨ NoTextHeader h) (bs : List UInt8) (b : Body)
    (hx : Prog.run t (Body.de t mode size h) bs = .ok (b, [])) (pre : List UInt8)
    (hp : pre <+: bs) (hne : pre ≠ bs) :
    Prog.run t (Body.de t mode size h) pre = .err .read := by
  obtain ⟨used, hb, -, hs⟩ := Prog.exec_split t .eof (Body.strict_on mode size ht) hx
  rw [List.append_nil] at hb
  subst hb
  exact hs .eof pre hp hne

/-- What follows a body in the input does not influence it. -/
theorem C41_locality (t : Target) (mode : BuildMode) (size : Nat)
    (h : Header) (ht : t.ptr = .w64 ∨ NoTextHeader h) (bs rest : List UInt8) (b : Body)
    (hx : Prog.run t (Body.de t mode size h) bs = .ok (b, rest)) :
    ∃ used, bs = used ++ rest ∧
      ∀ rest', Prog.run t (Body.de t mode size h) (used ++ rest') = .ok (b, rest') := by
  obtain ⟨used, hb, hl, -⟩ := Prog.exec_split t .eof (Body.strict_on mode size ht) hx
  exact ⟨used, hb, hl .eof⟩

/-! ## C63 re-encoding -/

/-- A decoded body re-serializes without error, to at most as many bytes as were
read, and these decode to the same body. -/
theorem C63_reencode (t : Target) (ht : t.ptr = .w64) (hm : 4096 ≤ t.memLimit) (mode : BuildMode)
    (size : Nat) (h : Header) (bs rest : List UInt8) (b : Body)
    (hx : Prog.run t (Body.de t mode size h) bs = .ok (b, rest)) :
    ∃ enc, Body.toVec mode b = (enc, .ok ()) ∧ enc.length + rest.length ≤ bs.length ∧
      ∀ rest', Prog.run t (Body.de t mode size h) (enc ++ rest') = .ok (b, rest') := by
  obtain ⟨n, hn, hg, hl⟩ := Body.yields_body (.self ht size) mode h .eof bs b rest hx
  have hc := Body.returns_conforms t mode size h .eof bs b rest hx
  refine ⟨bodyWire b, C35_encoding t mode b hg.exist hg.dates, by omega, fun rest' => ?_⟩
  exact Body.de_wire t mode size hm h b hc hg .eof rest'

/-- On every target a decoded body re-serializes without error, to at most as many
bytes as were read. -/
theorem C63_shorter (t : Target) (mode : BuildMode) (size : Nat) (h : Header) (fin : Ending)
    (bs rest : List UInt8) (b : Body)
    (hx : Prog.exec t fin (Body.de t mode size h) bs = .ok (b, rest)) :
    ∃ enc, Body.toVec mode b = (enc, .ok ()) ∧ enc.length + rest.length ≤ bs.length := by
  obtain ⟨n, hn, hg, hl⟩ := Body.yields_body (.any t size) mode h fin bs b rest hx
  exact ⟨bodyWire b, C35_encoding ⟨.w64, 0⟩ mode b hg.exist hg.dates, by omega⟩

/-- On every target, if the body can exist there (lengths below the size of the address
space), what it re-serializes to decodes to the same body. -/
theorem C63_any_target (t : Target) (hm : 4096 ≤ t.memLimit) (mode : BuildMode) (size : Nat)
    (h : Header) (fin : Ending) (bs rest : List UInt8) (b : Body)
    (hx : Prog.exec t fin (Body.de t mode size h) bs = .ok (b, rest)) (he : Exists t b) :
    ∃ enc, Body.toVec mode b = (enc, .ok ()) ∧ enc.length + rest.length ≤ bs.length ∧
      ∀ fin' rest', Prog.exec t fin' (Body.de t mode size h) (enc ++ rest') = .ok (b, rest') := by
  obtain ⟨n, hn, hg, hl⟩ := Body.yields_body (.any t size) mode h fin bs b rest hx
  have hc := Body.returns_conforms t mode size h fin bs b rest hx
  have hv := (Body.returns_granted t mode size h fin bs b rest hx).fit he
  refine ⟨bodyWire b, C35_encoding t mode b he hg.dates, by omega, fun fin' rest' => ?_⟩
  exact Body.de_wire t mode size hm h b hc ⟨he, hg.clean, hg.dates, hv⟩ fin' rest'

/-- On a 32-bit target: the text of 128 bytes that is read where 2^32 + 128 were announced
(see C59) is written with its own length. -/
example : ∃ s, Prog.run ⟨.w32, 4096⟩ (Body.de ⟨.w32, 4096⟩ .debug 56 .string)
        (varint 64 (2 ^ 32 + 128) ++ List.replicate 128 97) = .ok (.string s, []) ∧
      Exists ⟨.w32, 4096⟩ (.string s) := by
  obtain ⟨s, h, -⟩ := C59_string_32bit ⟨.w32, 4096⟩ rfl
  have hs : Prog.exec ⟨.w32, 4096⟩ .eof (De.deString ⟨.w32, 4096⟩)
      (varint 64 (2 ^ 32 + 128) ++ List.replicate 128 97) = .ok (s, []) := by
    rw [Prog.run, De.de, De.exec_map] at h
    cases hx : Prog.exec ⟨.w32, 4096⟩ .eof (De.deString ⟨.w32, 4096⟩)
        (varint 64 (2 ^ 32 + 128) ++ List.replicate 128 97) with
    | ok a =>
      rw [hx] at h
      simp only [Outcome.map, Outcome.ok.injEq, Prod.mk.injEq, Val.str.injEq] at h
      obtain ⟨h1, h2⟩ := h
      rw [← h1, ← h2]
    | err e => rw [hx] at h; simp [Outcome.map] at h
    | panic e => rw [hx] at h; simp [Outcome.map] at h
  refine ⟨s, ?_, fun c hc => ?_⟩
  · rw [Prog.run, Body.de, De.exec_map, hs]; rfl
  · obtain ⟨n, -, hl⟩ := De.yields_string ⟨.w32, 4096⟩ .eof _ s [] hs
    simp only [parts, List.mem_singleton] at hc
    subst hc
    exact ⟨hl.2, by simp⟩

/-- A non-canonical input (the number 5 written in two bytes) is re-encoded in
one. -/
example : Prog.run ⟨.w64, 4096⟩ (Body.de ⟨.w64, 4096⟩ .debug 56 .uint32) [0x85, 0]
      = .ok (.uint32 5, []) ∧ Body.toVec .debug (.uint32 5) = ([5], .ok ()) := by
  refine ⟨?_, ?_⟩
  · rw [Prog.run, Body.de, Prog.bind_eq, Prog.exec_bind, show De.deU32 = De.io PrefixVarint.decodeU32 from rfl,
      De.exec_u32, show varintDecode 32 [0x85, 0] = some (5, []) by decide +kernel]
    rfl
  · rw [Body.toVec, Body.ser]; decide +kernel

/-! ## C42 memory -/

/-- Exactly what an array header does with the announced length: it asks for
that many bodies before reading any. -/
theorem C42_outcome (t : Target) (mode : BuildMode) (size : Nat) (h : Header)
    (bs rest : List UInt8) (n : Nat) (hn : varintDecode 64 bs = some (n, rest)) :
    (2 ^ (t.ptr.bits - 1) ≤ n % 2 ^ t.ptr.bits * size →
      Prog.run t (Body.de t mode size (.array h)) bs = .panic .capacityOverflow) ∧
    (n % 2 ^ t.ptr.bits * size < 2 ^ (t.ptr.bits - 1) → t.memLimit < n % 2 ^ t.ptr.bits * size →
      Prog.run t (Body.de t mode size (.array h)) bs = .panic .allocFailure) := by
  have hlt : n < 2 ^ 64 := De.varintDecode_lt (by simp) hn
  have key : Prog.run t (Body.de t mode size (.array h)) bs = Prog.exec t .eof
      (.alloc (n % 2 ^ t.ptr.bits * size) do
        let buf ← De.times n (Body.de t mode size h)
        pure (Body.array buf)) rest := by
    rw [Prog.run, Body.de, Prog.bind_eq, Prog.exec_bind, show De.deU64 = De.io PrefixVarint.decodeU64 from rfl,
      De.exec_u64, hn, De.ofDec, Prog.next_ok, Target.asUsize, UInt64.toNat_ofNat',
      Nat.mod_eq_of_lt hlt]
  rw [key, Prog.exec, Target.allocate]
  have hp := Nat.two_pow_pos (t.ptr.bits - 1)
  have hi : t.isizeMax = 2 ^ (t.ptr.bits - 1) - 1 := rfl
  refine ⟨fun h1 => by rw [if_pos (by omega)], fun h1 h2 => by rw [if_neg (by omega), if_pos h2]⟩

/-- For every target and every memory limit nine bytes suffice to make the
decoder panic, whatever the element header. -/
theorem C42_hazard (t : Target) (mode : BuildMode) (size : Nat) (hsize : 1 ≤ size) (h : Header) :
    ∃ bs : List UInt8, bs.length ≤ 9 ∧
      Prog.run t (Body.de t mode size (.array h)) bs = .panic .capacityOverflow := by
  refine ⟨varint 64 (2 ^ 64 - 1), by decide +kernel, ?_⟩
  have hd := varintDecode_varint 64 (2 ^ 64 - 1) (by simp) (by decide) []
  rw [List.append_nil] at hd
  refine (C42_outcome t mode size h _ _ _ hd).1 ?_
  have h1 : (2 ^ 64 - 1) % 2 ^ t.ptr.bits = 2 ^ t.ptr.bits - 1 := by cases t.ptr <;> decide
  have h2 : 2 ^ (t.ptr.bits - 1) ≤ 2 ^ t.ptr.bits - 1 := by cases t.ptr <;> decide
  rw [h1]
  exact Nat.le_trans h2 (Nat.le_mul_of_pos_right _ hsize)

/-- Announcing one element more than fits in memory aborts the process. -/
theorem C42_abort (t : Target) (mode : BuildMode) (size n : Nat) (h : Header)
    (hbig : t.memLimit < n * size) (hcap : n * size < 2 ^ (t.ptr.bits - 1)) :
    (varint 64 n).length ≤ 9 ∧
      Prog.run t (Body.de t mode size (.array h)) (varint 64 n) = .panic .allocFailure := by
  have hn : n < 2 ^ t.ptr.bits := by
    have h1 : 0 < size := by
      rcases Nat.eq_zero_or_pos size with rfl | h
      · simp at hbig
      · exact h
    have h2 : n ≤ n * size := Nat.le_mul_of_pos_right _ h1
    have h3 : 2 ^ (t.ptr.bits - 1) < 2 ^ t.ptr.bits := by cases t.ptr <;> decide
    omega
  have h64 := De.lt_64_of_lt_bits hn
  refine ⟨by rw [length_varint, varintLen]; omega, ?_⟩
  have hd := varintDecode_varint 64 n (by simp) h64 []
  rw [List.append_nil] at hd
  have := (C42_outcome t mode size h _ _ _ hd).2
  rw [Nat.mod_eq_of_lt hn] at this
  exact this hcap hbig

/-- A machine with 1 GiB, bodies of 56 bytes: four bytes of input. -/
example : (2 : Nat) ^ 30 < 2 ^ 25 * 56 ∧ 2 ^ 25 * 56 < 2 ^ (PtrWidth.w64.bits - 1) ∧
    (varint 64 (2 ^ 25)).length = 4 := by decide +kernel

/-- Headers without arrays: no request exceeds the larger of 4096 bytes and the
vector for the widest tuple of the header, whatever the input. -/
theorem C42_no_array (t : Target) (mode : BuildMode) (size : Nat) (h : Header) (c : Nat)
    (hc : 4096 ≤ c) (ha : ∀ h', .array h' ∉ headerParts h)
    (ht : ∀ hs, .tuple hs ∈ headerParts h → hs.length * size ≤ c) (fin : Ending)
    (bs : List UInt8) :
    (∀ n ∈ Prog.requests t fin (Body.de t mode size h) bs, n ≤ c) ∧
    (c ≤ t.memLimit → c < 2 ^ (t.ptr.bits - 1) →
      Prog.exec t fin (Body.de t mode size h) bs ≠ .panic .capacityOverflow ∧
      Prog.exec t fin (Body.de t mode size h) bs ≠ .panic .allocFailure) := by
  refine ⟨(Body.allocLe_body t mode size h c hc ha ht).requests t fin bs, fun h1 h2 => ?_⟩
  have := Body.panicsIn_body (t := t) (by omega) mode size h (· = .overflow)
    (fun h' hh => absurd hh (ha h'))
    (fun hs hh => .inl (by
      have := ht hs hh
      have hi : t.isizeMax = 2 ^ (t.ptr.bits - 1) - 1 := rfl
      rw [Target.allocate, if_neg (by omega), if_neg (by omega)]))
    (fun _ => .inr rfl) fin bs
  exact ⟨fun hx => (by simpa using this _ hx), fun hx => (by simpa using this _ hx)⟩

example : ∀ h', .array h' ∉ headerParts (.tuple [.map .string, .enum [.unit, .bigInt]]) := by
  simp [headerParts, headersParts]

/-! ## C61 element counts -/

/-- Typed decoding: nine bytes decode to a sequence of any number of units. -/
theorem C61_typed_units (t : Target) (hm : 4096 ≤ t.memLimit) (n : Nat)
    (hn : n < 2 ^ t.ptr.bits) :
    (varint 64 n).length ≤ 9 ∧
      Prog.run t (De.de t (.seq .unit)) (varint 64 n)
        = .ok (.seq (some n) (List.replicate n .unit), []) := by
  refine ⟨by rw [length_varint, varintLen]; omega, ?_⟩
  have hv : Has t (.seq .unit) (.seq (some n) (List.replicate n .unit)) := by
    rw [Has]
    refine ⟨List.replicate n .unit, by simp, by simpa using hn, fun v hv => ?_⟩
    rw [List.eq_of_mem_replicate hv, Has]
  have := De.de_wire t hm (.seq .unit) (by simp [Supported]) _ hv .eof []
  have hw : wireAll (List.replicate n Val.unit) = [] := by
    clear hn hv this
    induction n with
    | zero => rfl
    | succ n ih => rw [List.replicate_succ, wireAll, ih]; rfl
  rwa [wire, lengthPrefix, hw, List.append_nil, List.append_nil] at this

/-- Dynamic decoding: the same for arrays of units, as long as the vector fits into
memory. -/
theorem C61_dynamic_units (t : Target) (hm : 4096 ≤ t.memLimit) (mode : BuildMode) (size n : Nat)
    (hn : n < 2 ^ t.ptr.bits) (hf : t.allocate (n * size) = Option.none) :
    (varint 64 n).length ≤ 9 ∧
      Prog.run t (Body.de t mode size (.array .unit)) (varint 64 n)
        = .ok (.array (List.replicate n .unit), []) := by
  refine ⟨by rw [length_varint, varintLen]; omega, ?_⟩
  have hp : ∀ n, partsAll (List.replicate n Body.unit) = List.replicate n .unit := by
    intro n
    induction n with
    | zero => rfl
    | succ n ih => rw [List.replicate_succ, partsAll, ih]; rfl
  have hmem : ∀ c, c ∈ parts (.array (List.replicate n .unit)) →
      c = .array (List.replicate n .unit) ∨ c = .unit := by
    intro c hc
    rw [parts, hp, List.mem_cons] at hc
    exact hc.imp_right List.eq_of_mem_replicate
  have := Body.de_wire t mode size hm (.array .unit) (.array (List.replicate n .unit))
    (.array _ _ fun b hb => by rw [List.eq_of_mem_replicate hb]; exact .unit)
    ⟨fun c hc => by rcases hmem c hc with rfl | rfl <;> simp [LengthsFit, hn],
      fun v hv => by simpa using hmem _ hv, fun _ d hd => by simpa using hmem _ hd,
      fun bs hbs => by
        rcases hbs with hbs | hbs
        · have h1 := hmem _ hbs
          simp at h1
          rw [h1, List.length_replicate]
          exact hf
        · simpa using hmem _ hbs⟩ .eof []
  have hw : ∀ n, bodiesWire (List.replicate n Body.unit) = [] := by
    intro n
    induction n with
    | zero => rfl
    | succ n ih => rw [List.replicate_succ, bodiesWire, ih]; rfl
  rwa [bodyWire, hw, List.length_replicate, List.append_nil, List.append_nil] at this

/-- Which headers are written as nothing. -/
theorem C61_zero_width (h : Header) (b : Body) (hc : Conforms h b) :
    bodyWire b = [] ↔ ZeroWidth h :=
  Body.bodyWire_nil h b hc

/-- All other arrays have fewer elements than the bytes they were read from. -/
theorem C61_array_bounded (t : Target) (mode : BuildMode) (size : Nat)
    (h : Header) (hz : ¬ ZeroWidth h) (bs rest : List UInt8) (elems : List Body)
    (hx : Prog.run t (Body.de t mode size (.array h)) bs = .ok (.array elems, rest)) :
    elems.length + rest.length < bs.length := by
  obtain ⟨n, hn, -, hl⟩ := Body.yields_body (.any t size) mode _ .eof bs _ rest hx
  have hc := Body.returns_conforms t mode size _ .eof bs _ rest hx
  cases hc with
  | array _ _ hc =>
    have h1 := Body.length_bodiesWire elems fun b hb he => hz ((Body.bodyWire_nil h b (hc b hb)).mp he)
    have h2 : 0 < (varint 64 elems.length).length := List.length_pos_iff.mpr (Body.varint_ne_nil _ _)
    rw [bodyWire, List.length_append] at hl
    omega

/-- All maps have. -/
theorem C61_map_bounded (t : Target) (mode : BuildMode) (size : Nat)
    (h : Header) (bs rest : List UInt8) (es : List (String × Body))
    (hx : Prog.run t (Body.de t mode size (.map h)) bs = .ok (.map es, rest)) :
    es.length + rest.length < bs.length := by
  obtain ⟨n, hn, -, hl⟩ := Body.yields_body (.any t size) mode _ .eof bs _ rest hx
  have h1 := Body.length_entriesWire es
  have h2 : 0 < (varint 64 es.length).length := List.length_pos_iff.mpr (Body.varint_ne_nil _ _)
  rw [bodyWire, List.length_append] at hl
  omega

/-- The same for typed sequences whose elements are never written as nothing. -/
theorem C61_seq_bounded (t : Target) (ty : Ty) (hs : Supported ty)
    (hz : ∀ v, Has ⟨.w64, t.memLimit⟩ ty v → wire v ≠ []) (bs rest : List UInt8) (hint : Option Nat)
    (vs : List Val) (hx : Prog.run t (De.de t (.seq ty)) bs = .ok (.seq hint vs, rest)) :
    vs.length + rest.length < bs.length := by
  obtain ⟨n, hn, hv, hl⟩ := De.yields_de t ⟨.w64, t.memLimit⟩ (.seq ty) hs .eof bs _ rest hx
  rw [Has] at hv
  obtain ⟨vs', he, -, hvs⟩ := hv (.inl rfl)
  simp only [Val.seq.injEq] at he
  obtain ⟨rfl, rfl⟩ := he
  have h1 : ∀ l : List Val, (∀ v ∈ l, Has ⟨.w64, t.memLimit⟩ ty v) → l.length ≤ (wireAll l).length := by
    intro l hl
    induction l with
    | nil => simp
    | cons v l ih =>
      have h1 : 0 < (wire v).length := List.length_pos_iff.mpr (hz v (hl v (by simp)))
      have h2 := ih fun w hw => hl w (by simp [hw])
      rw [wireAll, List.length_append, List.length_cons]
      omega
  have h2 : 0 < (varint 64 vs.length).length := List.length_pos_iff.mpr (Body.varint_ne_nil _ _)
  have h3 := h1 vs hvs
  rw [wire, lengthPrefix, List.length_append] at hl
  omega

example : ¬ ZeroWidth (.optional .unit) ∧ ZeroWidth (.tuple [.unit, .tuple []]) ∧
    ∀ (t : Target) v, Has t .bool v → wire v ≠ [] := by
  refine ⟨by simp [ZeroWidth], by simp [ZeroWidth, AllZeroWidth], fun t v hv => ?_⟩
  rw [Has] at hv
  obtain ⟨b, rfl⟩ := hv
  simp [wire]

/-! ## C64 32-bit targets -/

/-- On a 32-bit target the typed decoder truncates a sequence length of 2^32 to
zero and succeeds, the dynamic decoder goes on to read 2^32 elements. -/
theorem C64_length_32bit (t : Target) (ht : t.ptr = .w32) (mode : BuildMode) (size : Nat) :
    Prog.run t (De.de t (.seq .u8)) (varint 64 (2 ^ 32)) = .ok (.seq (some 0) [], []) ∧
    Prog.run t (Body.de t mode size (.array .uint8)) (varint 64 (2 ^ 32)) = .err .read := by
  have hd := varintDecode_varint 64 (2 ^ 32) (by simp) (by decide) []
  rw [List.append_nil] at hd
  have hus : t.asUsize (UInt64.ofNat (2 ^ 32)) = 0 := by
    rw [Target.asUsize, ht]; decide +kernel
  have hnat : (UInt64.ofNat (2 ^ 32)).toNat = (2 ^ 32 - 1) + 1 := by decide +kernel
  constructor
  · rw [Prog.run, De.de, Prog.bind_eq, Prog.exec_bind, De.exec_u64, hd, De.ofDec, Prog.next_ok, hus]
    rfl
  · rw [Prog.run, Body.de, Prog.bind_eq, Prog.exec_bind,
      show De.deU64 = De.io PrefixVarint.decodeU64 from rfl,
      De.exec_u64, hd, De.ofDec, Prog.next_ok, hus, hnat, Prog.exec, Target.allocate, Nat.zero_mul,
      if_neg (by omega), if_neg (by omega), De.times, Body.de]
    generalize 2 ^ 32 - 1 = k
    rfl

/-! ## C62 panics -/

/-- Headers without arrays and dates: decoding returns for every input, if a
vector for the widest tuple can be allocated. -/
theorem C62_no_panic (t : Target) (hm : 4096 ≤ t.memLimit) (mode : BuildMode) (size : Nat)
    (h : Header) (ha : ∀ h', .array h' ∉ headerParts h)
    (ht : ∀ hs, .tuple hs ∈ headerParts h → t.allocate (hs.length * size) = Option.none)
    (hd : .date ∈ headerParts h → mode = .release) (bs : List UInt8) :
    (Prog.run t (Body.de t mode size h) bs).returns :=
  (Body.total_body hm mode size h ha ht hd).exec .eof bs

/-- The same from any reader. -/
theorem C62_no_panic_reader (t : Target) (hm : 4096 ≤ t.memLimit) (mode : BuildMode) (size : Nat)
    (h : Header) (ha : ∀ h', .array h' ∉ headerParts h)
    (ht : ∀ hs, .tuple hs ∈ headerParts h → t.allocate (hs.length * size) = Option.none)
    (hd : .date ∈ headerParts h → mode = .release) (bufs : Nat → Nat) (s : Script) :
    (Prog.runScript t bufs (Body.de t mode size h) s).returns :=
  (Body.total_body hm mode size h ha ht hd).runScript bufs s

/-- For all headers: the only ways not to return are a refused allocation
(needs an array or tuple) and an overflow (needs a date and overflow checks). -/
theorem C62_panics (t : Target) (hm : 4096 ≤ t.memLimit) (mode : BuildMode) (size : Nat)
    (h : Header) (bs : List UInt8) (q : PanicKind)
    (hx : Prog.run t (Body.de t mode size h) bs = .panic q) :
    ((q = .capacityOverflow ∨ q = .allocFailure) ∧
      ((∃ h', .array h' ∈ headerParts h) ∨ ∃ hs, .tuple hs ∈ headerParts h)) ∨
    (q = .overflow ∧ mode = .debug ∧ .date ∈ headerParts h) := by
  have := Body.panicsIn_body hm mode size h (fun q =>
    ((q = .capacityOverflow ∨ q = .allocFailure) ∧
      ((∃ h', .array h' ∈ headerParts h) ∨ ∃ hs, .tuple hs ∈ headerParts h)) ∨
    (q = .overflow ∧ mode = .debug ∧ .date ∈ headerParts h))
    (fun h' hh => ⟨.inl ⟨.inl rfl, .inl ⟨h', hh⟩⟩, .inl ⟨.inr rfl, .inl ⟨h', hh⟩⟩⟩)
    (fun hs hh => .inr ⟨.inl ⟨.inl rfl, .inr ⟨hs, hh⟩⟩, .inl ⟨.inr rfl, .inr ⟨hs, hh⟩⟩⟩)
    (fun hh => by cases mode <;> simp [hh]) .eof bs q hx
  exact this

/-- Serializing a body never fails or panics, if the dates can be rebased. -/
theorem C62_ser (t : Target) (mode : BuildMode) (b : Body) (he : Exists t b)
    (hd : DatesFit mode b) : (Body.toVec mode b).2 = .ok () := by
  rw [C35_encoding t mode b he hd]

/-! ## C24-C28 for bodies -/

/-- Decoding a body from any reader is decoding the bytes it delivers. -/
theorem C24_body (t : Target) (mode : BuildMode) (size : Nat) (h : Header)
    (ht : t.ptr = .w64 ∨ NoTextHeader h) (bufs : Nat → Nat) (s : Script) :
    (Prog.runScript t bufs (Body.de t mode size h) s).map (fun (b, s') => (b, s'.bytes))
      = Prog.run t (Body.de t mode size h) s.bytes := by
  have hs := Body.strict_on mode size ht
  have hx := Prog.runScript_spec t bufs hs s
  have he : Prog.exec t s.ending (Body.de t mode size h) s.bytes
      = Prog.run t (Body.de t mode size h) s.bytes := by
    rcases Prog.exec_ending t s.ending .eof hs s.bytes with h | ⟨h1, h2⟩
    · exact h
    · rw [h1, Prog.run, h2]; rfl
  rw [he] at hx
  cases hr : Prog.run t (Body.de t mode size h) s.bytes with
  | ok a =>
    rw [hr] at hx
    obtain ⟨s', h1, h2, -⟩ := hx
    rw [h1, Outcome.map]; simp only [h2]
  | err e => rw [hr] at hx; simp only at hx; rw [hx]; rfl
  | panic q => rw [hr] at hx; simp only at hx; rw [hx]; rfl

/-- A reader that ends or fails in the middle of a body is `Err(Read)`. -/
theorem C25_body (t : Target) (mode : BuildMode) (size : Nat) (h : Header)
   
    (ht : t.ptr = .w64 ∨ NoTextHeader h) (bs : List UInt8) (b : Body) (hx : Prog.run t (Body.de t mode size h) bs = .ok (b, []))
    (bufs : Nat → Nat) (s : Script) (hp : s.bytes <+: bs) (hne : s.bytes ≠ bs) :
    Prog.runScript t bufs (Body.de t mode size h) s = .err .read := by
  have hr := C24_body t mode size h ht bufs s
  rw [C41_truncation t mode size h ht bs b hx s.bytes hp hne] at hr
  cases hx : Prog.runScript t bufs (Body.de t mode size h) s with
  | ok a => rw [hx] at hr; simp [Outcome.map] at hr
  | err e => rw [hx] at hr; simpa [Outcome.map] using hr
  | panic q => rw [hx] at hr; simp [Outcome.map] at hr

/-- Short writes and interruptions do not change what is written for a body. -/
theorem C26_body (mode : BuildMode) (b : Body) (s : WScript)
    (hs : ∀ ev ∈ s, ev = .interrupted ∨ ∃ n, ev = .accept (n + 1)) :
    (Body.ser mode b).runScript s = Body.toVec mode b :=
  WProg.runScript_benign _ s hs

/-- On every writer the body was written completely, or the result is
`Err(Write)` and a strict prefix was written. -/
theorem C27_body (mode : BuildMode) (b : Body) (s : WScript) :
    (Body.ser mode b).runScript s = Body.toVec mode b ∨
    (((Body.ser mode b).runScript s).2 = .err .write ∧
      ((Body.ser mode b).runScript s).1 <+: (Body.toVec mode b).1 ∧
      ((Body.ser mode b).runScript s).1 ≠ (Body.toVec mode b).1) := by
  rcases WProg.runScript_prefix (Body.maps_ser mode b) s with h | ⟨⟨_, h1⟩, h2, h3⟩
  · exact .inl h
  · exact .inr ⟨h1, h2, h3⟩

/-- A torn body is recognised as such. -/
theorem C28_body (t : Target) (hm : 4096 ≤ t.memLimit) (mode : BuildMode)
    (size : Nat) (h : Header) (b : Body) (hv : Body.validate h b = true) (he : Exists t b)
    (hc : CleanDecimals b) (hd : DatesFit mode b) (hf : VectorsFit t size b) (s : WScript)
    (hfail : ((Body.ser mode b).runScript s).2 ≠ .ok ()) :
    Prog.run t (Body.de t mode size h) ((Body.ser mode b).runScript s).1 = .err .read := by
  obtain ⟨enc, h1, h2⟩ := C35_roundtrip t hm mode size h b hv he hc hd hf
  rcases C27_body mode b s with hw | ⟨-, hp, hne⟩
  · rw [hw, h1] at hfail; exact absurd rfl hfail
  · rw [h1] at hp hne
    exact (Prog.recognised (Body.tame_de t mode size h) (h2 [0]) (by simp)).slice _ hp hne

end Dlhn.Props
