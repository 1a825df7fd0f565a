import Verif.Proof.Rec
import Verif.Props.Io
/-!
# C84-C86: recursive types

`defs` gives the definition of every named type, and definitions may mention names,
so types can be recursive. `Rec.deNamed t defs d n` is `n::deserialize` with room
on the stack for `d` nested calls of that kind; when the room is used up the
outcome is `.panic .stackOverflow` (which in Rust is an abort). `Spec.Deep t defs d n v`
says that `v` is a value of `n` in which named types are nested at most `d` deep.
-/
namespace Dlhn.Props

open Spec De Rec

/-! ## Sample types and values -/

/-- `struct List { next: Option<Box<List>> }` and
`enum Json { Null, Num(f64), Arr(Vec<Json>), Obj(BTreeMap<String, Json>) }`. -/
def sampleDefs : Defs := fun n =>
  if n = "List" then .struct "List" [("next", .option (.named "List"))]
  else .enum "Json" [("Null", .unit), ("Num", .newtype (.leaf .f64)),
    ("Arr", .newtype (.seq (.named "Json"))), ("Obj", .newtype (.map .string (.named "Json")))]

theorem sampleDefs_supported (n : String) : RecSupported (sampleDefs n) := by
  unfold sampleDefs
  split <;>
    simp [RecSupported, FieldsRecSupported, VariantsRecSupported, PayloadRecSupported, Supported]

theorem sampleDefs_guarded (n : String) : Guarded (sampleDefs n) := by
  unfold sampleDefs
  split <;> simp [Guarded, FieldsGuarded]

/-- A list of `k + 1` nodes. -/
def chain : Nat → Val
  | 0 => .struct "List" [("next", .none)]
  | k + 1 => .struct "List" [("next", .some (chain k))]

theorem chain_deep (t : Target) : (d k : Nat) → (Deep t sampleDefs d "List" (chain k) ↔ k < d)
  | 0, k => by simp [Deep]
  | d + 1, 0 => by simp [Deep, sampleDefs, HasRec, HasRecFields, chain]
  | d + 1, k + 1 => by
    have := chain_deep t d k
    simp [Deep, sampleDefs, HasRec, HasRecFields, chain, this]

/-- `{"a": [null, []]}`. -/
def sampleJson : Val := .newtypeVariant "Json" 3 "Obj" (.map (some 1) [(.str "a",
  .newtypeVariant "Json" 2 "Arr" (.seq (some 2) [.unitVariant "Json" 0 "Null",
    .newtypeVariant "Json" 2 "Arr" (.seq (some 0) [])]))])

theorem sampleJson_deep (t : Target) : Deep t sampleDefs 3 "Json" sampleJson := by
  have hb : 4 ≤ 2 ^ t.ptr.bits := by
    have : 2 ^ 2 ≤ 2 ^ t.ptr.bits := Nat.pow_le_pow_right (by omega) (by cases t.ptr <;> decide)
    omega
  simp [Deep, sampleDefs, sampleJson, HasRec, HasRecVariant, HasRecPayload, Has, utf8]
  refine ⟨_, ⟨rfl, rfl⟩, by rw [List.length_singleton]; omega, fun a b h => ?_⟩
  simp only [List.mem_singleton, Prod.mk.injEq] at h
  obtain ⟨rfl, rfl⟩ := h
  refine ⟨⟨"a", rfl, ?_⟩, .inr (.inr (.inl ⟨_, rfl,
    [.unitVariant "Json" 0 "Null", .newtypeVariant "Json" 2 "Arr" (.seq (some 0) [])], rfl, ?_,
    fun w hw => ?_⟩))⟩
  · have : "a".utf8ByteSize = 1 := by decide +kernel
    omega
  · rw [List.length_cons, List.length_singleton]; omega
  · simp only [List.mem_cons, List.not_mem_nil, or_false] at hw
    rcases hw with rfl | rfl
    · exact .inl rfl
    · exact .inr (.inr (.inl ⟨_, rfl, [], rfl, by rw [List.length_nil]; omega, by simp⟩))

/-! ## C84 values of recursive types -/

/-- The decoder with `d` levels of stack, on the encoding of a value followed by
anything: the value comes back if it is nested at most `d` deep. -/
theorem C84_roundtrip (t : Target) (hm : 4096 ≤ t.memLimit) (defs : Defs)
    (hs : ∀ n, RecSupported (defs n)) (n : String) (d : Nat) (v : Val)
    (hv : Deep t defs d n v) : ∃ enc, Ser.toVec v = (enc, .ok ()) ∧
      ∀ rest, Prog.run t (deNamed t defs d n) (enc ++ rest) = .ok (v, rest) := by
  obtain ⟨enc, h1, h2⟩ := C07_roundtrip t hm _ (supported_named hs d n) v
    ((has_named t defs d n v).mp hv)
  exact ⟨enc, h1, fun rest => (sameOk_named t defs d n .eof _ v rest).mpr (h2 rest)⟩

example (t : Target) (hm : 4096 ≤ t.memLimit) : ∃ enc, Ser.toVec sampleJson = (enc, .ok ()) ∧
    ∀ rest, Prog.run t (deNamed t sampleDefs 3 "Json") (enc ++ rest) = .ok (sampleJson, rest) :=
  C84_roundtrip t hm _ sampleDefs_supported _ _ _ (sampleJson_deep t)

example : (Ser.toVec sampleJson).1 = [3, 1, 1, 97, 2, 2, 0, 2, 0] := by decide +kernel

/-- So for every value of a recursive type, however deep, there is an amount of
stack from which on it comes back. -/
theorem C84_every_value (t : Target) (hm : 4096 ≤ t.memLimit) (defs : Defs)
    (hs : ∀ n, RecSupported (defs n)) (n : String) (v : Val) (hv : HasNamed t defs n v) :
    ∃ enc, Ser.toVec v = (enc, .ok ()) ∧ ∃ d₀, ∀ d, d₀ ≤ d → ∀ rest,
      Prog.run t (deNamed t defs d n) (enc ++ rest) = .ok (v, rest) := by
  obtain ⟨d₀, h⟩ := hv
  obtain ⟨enc, h1, h2⟩ := C84_roundtrip t hm defs hs n d₀ v h
  refine ⟨enc, h1, d₀, fun d hd rest => ?_⟩
  have := below_le t defs hd n .eof (enc ++ rest)
  rw [show Prog.exec t .eof (deNamed t defs d₀ n) (enc ++ rest) = .ok (v, rest) from h2 rest] at this
  rcases this with h | h
  · exact h.symm
  · simp at h

/-- What is decoded (on a 32-bit target from less than 2^32 bytes) is a value of the type,
nested no deeper than the stack, and it re-encodes to no more bytes, which decode to it. -/
theorem C84_decoded (t : Target) (hm : 4096 ≤ t.memLimit) (defs : Defs)
    (hs : ∀ n, RecSupported (defs n)) (n : String) (d : Nat) (bs rest : List UInt8) (v : Val)
    (hl : t.ptr = .w64 ∨ bs.length < rest.length + 2 ^ 32)
    (h : Prog.run t (deNamed t defs d n) bs = .ok (v, rest)) :
    Deep t defs d n v ∧ ∃ enc, Ser.toVec v = (enc, .ok ()) ∧
      enc.length + rest.length ≤ bs.length ∧
      Prog.run t (deNamed t defs d n) (enc ++ rest) = .ok (v, rest) := by
  obtain ⟨h1, enc, h2, h3, h4⟩ := C12_reencode t hm _ (supported_named hs d n) bs rest v hl
    ((sameOk_named t defs d n .eof bs v rest).mp h)
  exact ⟨(has_named t defs d n v).mpr h1, enc, h2, h3,
    (sameOk_named t defs d n .eof _ v rest).mpr h4⟩

/-- No value's encoding is a prefix of another's, whatever their depths. -/
theorem C84_prefix_free (t : Target) (hm : 4096 ≤ t.memLimit) (defs : Defs)
    (hs : ∀ n, RecSupported (defs n)) (n : String) (v w : Val) (hv : HasNamed t defs n v)
    (hw : HasNamed t defs n w) (hne : v ≠ w) : ¬ (Ser.toVec v).1 <+: (Ser.toVec w).1 := by
  obtain ⟨ev, h1, dv, h2⟩ := C84_every_value t hm defs hs n v hv
  obtain ⟨ew, h3, dw, h4⟩ := C84_every_value t hm defs hs n w hw
  rw [h1, h3]
  rintro ⟨r, hr⟩
  have a := h2 (max dv dw) (Nat.le_max_left ..) r
  have b := h4 (max dv dw) (Nat.le_max_right ..) []
  simp only at hr
  rw [hr] at a
  rw [List.append_nil, a] at b
  simp only [Outcome.ok.injEq, Prod.mk.injEq] at b
  exact hne b.1

example (t : Target) : HasNamed t sampleDefs "List" (chain 4) ∧
    HasNamed t sampleDefs "List" (chain 7) ∧ chain 4 ≠ chain 7 :=
  ⟨⟨5, (chain_deep t 5 4).mpr (by omega)⟩, ⟨8, (chain_deep t 8 7).mpr (by omega)⟩,
    fun h => by simp [chain] at h⟩

/-- On 64-bit targets, and on all targets for definitions without text, a prefix that ends
within the bytes a value was read from is `Err(Read)`. -/
theorem C84_truncation (t : Target) (defs : Defs)
    (ht : t.ptr = .w64 ∨ ∀ n, NoTextRec (defs n)) (n : String) (d : Nat)
    (bs rest : List UInt8) (v : Val) (h : Prog.run t (deNamed t defs d n) bs = .ok (v, rest))
    (k : Nat) (hk : k + rest.length < bs.length) :
    Prog.run t (deNamed t defs d n) (bs.take k) = .err .read := by
  obtain ⟨used, hb, -, hp⟩ := Prog.exec_split t .eof (Rec.strict_on ht d n) h
  subst hb
  rw [List.length_append] at hk
  refine hp .eof _ ?_ ?_
  · rw [List.take_append_of_le_length (by omega)]
    exact List.take_prefix _ _
  · intro h'
    have := congrArg List.length h'
    rw [List.length_take, List.length_append] at this
    omega

/-- On 64-bit targets, and on all targets for definitions without text, the result
depends only on the bytes the reader delivers. -/
theorem C84_reader (t : Target) (defs : Defs)
    (ht : t.ptr = .w64 ∨ ∀ n, NoTextRec (defs n)) (n : String) (d : Nat)
    (size : Nat → Nat) (s : Script) :
    (Prog.runScript t size (deNamed t defs d n) s).map (fun (v, s') => (v, s'.bytes))
      = Prog.run t (deNamed t defs d n) s.bytes := by
  have h := Prog.runScript_spec t size (Rec.strict_on ht d n) s
  have he : Prog.exec t s.ending (deNamed t defs d n) s.bytes
      = Prog.run t (deNamed t defs d n) s.bytes := by
    rcases Prog.exec_ending t s.ending .eof (Rec.strict_on ht d n) s.bytes with h | ⟨h1, h2⟩
    · exact h
    · rw [h1, Prog.run, h2]; rfl
  rw [he] at h
  cases hr : Prog.run t (deNamed t defs d n) s.bytes with
  | ok a =>
    rw [hr] at h
    obtain ⟨s', h1, h2, -⟩ := h
    rw [h1, Outcome.map]; simp only [h2]
  | err e => rw [hr] at h; simp only at h; rw [h]; rfl
  | panic q => rw [hr] at h; simp only at h; rw [h]; rfl

/-- No single up-front allocation exceeds 4096 bytes. -/
theorem C84_alloc (t : Target) (defs : Defs) (n : String) (d : Nat) (fin : Ending)
    (bs : List UInt8) : ∀ k ∈ Prog.requests t fin (deNamed t defs d n) bs, k ≤ 4096 :=
  (allocLe_named t defs d n).requests t fin bs

/-! ## C85 the stack -/

theorem below_unrolled (t : Target) (defs : Defs) : (d : Nat) → (n : String) →
    Below t (deNamed t defs d n) (de t (unrollNamed defs d n))
  | 0, _ => fun _ _ => .inr (by rw [deNamed]; rfl)
  | d + 1, n => by
    rw [deNamed, unrollNamed, ← deBody_unroll]
    exact cong_body (cong_below t) t (below_unrolled t defs d) (defs n)

/-- Running out of stack is the only way decoding a recursive type can panic. -/
theorem C85_returns (t : Target) (hm : 4096 ≤ t.memLimit) (defs : Defs)
    (hs : ∀ n, RecSupported (defs n)) (n : String) (d : Nat) (bs : List UInt8) :
    (Prog.run t (deNamed t defs d n) bs).returns ∨
      Prog.run t (deNamed t defs d n) bs = .panic .stackOverflow := by
  rcases below_unrolled t defs d n .eof bs with h | h
  · exact .inl (by
      rw [Prog.run, h]; exact C13_no_panic_supported t hm _ (supported_named hs d n) bs)
  · exact .inr h

/-- With more stack the result is the same, unless the stack ran out. -/
theorem C85_more_stack (t : Target) (defs : Defs) (n : String) (d e : Nat) (hde : d ≤ e)
    (bs : List UInt8) (h : Prog.run t (deNamed t defs d n) bs ≠ .panic .stackOverflow) :
    Prog.run t (deNamed t defs e n) bs = Prog.run t (deNamed t defs d n) bs := by
  rcases below_le t defs hde n .eof bs with h' | h'
  · exact h'.symm
  · exact absurd h' h

/-- A value nested deeper than the stack exhausts it: nothing limits the depth
before. -/
theorem C85_too_deep (t : Target) (hm : 4096 ≤ t.memLimit) (defs : Defs)
    (hs : ∀ n, RecSupported (defs n)) (n : String) (d : Nat) (v : Val)
    (hl : t.ptr = .w64 ∨ (Ser.toVec v).1.length < 2 ^ 32)
    (hv : HasNamed t defs n v) (hd : ¬ Deep t defs d n v) : ∃ enc, Ser.toVec v = (enc, .ok ()) ∧
      ∀ rest, Prog.run t (deNamed t defs d n) (enc ++ rest) = .panic .stackOverflow := by
  obtain ⟨enc, h1, d₀, h2⟩ := C84_every_value t hm defs hs n v hv
  refine ⟨enc, h1, fun rest => ?_⟩
  have hx : Prog.exec t .eof (deNamed t defs (max d d₀) n) (enc ++ rest) = .ok (v, rest) :=
    h2 (max d d₀) (Nat.le_max_right ..) rest
  rcases below_le t defs (Nat.le_max_left d d₀) n .eof (enc ++ rest) with h | h
  · rw [hx] at h
    have h3 := (sameOk_named t defs d n .eof _ v rest).mp h
    obtain ⟨m, hm', h4, _⟩ := yields_de t t _ (supported_named hs d n) _ _ _ _ h3
    rw [List.length_append] at hm'
    have hw : t.ptr = .w64 ∨ m < 2 ^ 32 := hl.imp_right fun hl => by
      rw [h1] at hl
      simp only at hl
      omega
    exact absurd ((has_named t defs d n v).mpr (h4 (.self hw))) hd
  · exact h

/-- If every definition mentions named types only inside an `Option`, a sequence, a
map or an enum, an input shorter than the stack cannot exhaust it: the result is
that of any larger stack. -/
theorem C85_enough (t : Target) (hm : 4096 ≤ t.memLimit) (defs : Defs)
    (hs : ∀ n, RecSupported (defs n)) (hg : ∀ n, Guarded (defs n)) (n : String) (d : Nat)
    (bs : List UInt8) (hl : bs.length < d) : (Prog.run t (deNamed t defs d n) bs).returns ∧
      ∀ e, d ≤ e → Prog.run t (deNamed t defs e n) bs = Prog.run t (deNamed t defs d n) bs := by
  have h : Prog.run t (deNamed t defs d n) bs ≠ .panic .stackOverflow :=
    fine_named hm hg d bs.length hl n .eof bs (Nat.le_refl _)
  exact ⟨(C85_returns t hm defs hs n d bs).resolve_right h,
    fun e he => C85_more_stack t defs n d e he bs h⟩

theorem exec_chain (t : Target) (d : Nat) (rest : List UInt8) :
    Prog.run t (deNamed t sampleDefs d "List") (List.replicate d 1 ++ rest)
      = .panic .stackOverflow := by
  induction d with
  | zero => rfl
  | succ d ih =>
    rw [deNamed]
    have hx : Prog.exec t .eof deBool (1 :: (List.replicate d 1 ++ rest))
        = .ok (true, List.replicate d 1 ++ rest) := rfl
    rw [Prog.run] at ih
    rw [Prog.run]
    simp only [sampleDefs, if_pos, deBody, Rec.deFields, Prog.bind_eq, Prog.exec_bind,
      List.replicate_succ, List.cons_append, hx, Prog.next_ok, ih, Prog.next_panic]

/-- That bound is exact: there is a type (`struct List { next: Option<Box<List>> }`)
for which, whatever the stack, an input of as many bytes as the stack has levels
exhausts it. So no amount of stack is enough for untrusted input. -/
theorem C85_exact : ∃ (defs : Defs) (n : String), (∀ m, RecSupported (defs m)) ∧
    (∀ m, Guarded (defs m)) ∧ ∀ (t : Target) (d : Nat), ∃ bs : List UInt8, bs.length = d ∧
      Prog.run t (deNamed t defs d n) bs = .panic .stackOverflow :=
  ⟨sampleDefs, "List", sampleDefs_supported, sampleDefs_guarded, fun t d =>
    ⟨List.replicate d 1, List.length_replicate, by
      have := exec_chain t d []
      rwa [List.append_nil] at this⟩⟩

/-- The hypotheses of `C85_too_deep` and `C85_enough` are met: a list of ten nodes
needs ten levels; its ten bytes need at most eleven. -/
example (t : Target) : HasNamed t sampleDefs "List" (chain 9) ∧
    ¬ Deep t sampleDefs 9 "List" (chain 9) ∧ Deep t sampleDefs 10 "List" (chain 9) ∧
    (Ser.toVec (chain 9)).1 = [1, 1, 1, 1, 1, 1, 1, 1, 1, 0] :=
  ⟨⟨10, (chain_deep t 10 9).mpr (by omega)⟩, fun h => by
    have := (chain_deep t 9 9).mp h; omega, (chain_deep t 10 9).mpr (by omega),
    by decide +kernel⟩

/-! ## C86 headers of recursive types -/

/-- A named type has a header, found by unfolding names a finite number of times, or
it is endless, and not both. -/
theorem C86_dichotomy (defs : String → HdrTy) (n : String) :
    (∃ d h, HeaderWithin defs d n h) ↔ ¬ Endless defs n := by
  constructor
  · rintro ⟨d, h, hh⟩ ⟨S, hn, hS⟩
    exact not_endless hS d n h hh hn
  · intro h
    exact (header_or_endless defs n).resolve_right h

/-- A type that has a header writes it, whenever the stack is deep enough to find
it. -/
theorem C86_writes (defs : String → HdrTy) (n : String) (d : Nat) (h : Header)
    (hh : HeaderWithin defs d n h) (hc : Countable h) (e : Nat) (hde : d ≤ e) :
    (headerNamed defs e n).exec = (headerWire h, .ok ()) :=
  writes_named defs e n h (headerWithin_le hde hh) hc

/-- `serialize_header` of an endless type never returns `Ok`: on a writer that takes
everything it exhausts the stack, however large it is. -/
theorem C86_overflows (defs : String → HdrTy) (n : String) (hn : Endless defs n) (d : Nat) :
    (headerNamed defs d n).exec.2 = .panic .stackOverflow := by
  obtain ⟨S, h1, h2⟩ := hn
  exact dead_named h2 d n h1

/-- On any writer: the write error it reports, or the stack is exhausted. -/
theorem C86_never_ok (defs : String → HdrTy) (n : String) (hn : Endless defs n) (d : Nat)
    (s : WScript) : ((headerNamed defs d n).runScript s).2 = .panic .stackOverflow ∨
      ∃ e, ((headerNamed defs d n).runScript s).2 = .err e := by
  rcases WProg.runScript_prefix (maps_named defs d n) s with h | ⟨⟨x, h⟩, -⟩
  · exact .inl (by rw [h, C86_overflows defs n hn d])
  · exact .inr ⟨_, h⟩

/-- And it could not: whatever headers one would give the named types, if each is
the header of the type's definition then an endless type gets none. (Named types
are structs and enums.) -/
theorem C86_no_header (defs : String → HdrTy) (hi : ∀ m, IsItem (defs m)) (n : String)
    (hn : Endless defs n) (H : String → Header → Prop)
    (hH : ∀ m h, H m h → HeaderOf H (defs m) h) (h : Header) : ¬ H n h := by
  obtain ⟨S, h1, h2⟩ := hn
  exact no_header h2 hi hH (sizeOf h) n h (Nat.le_refl _) h1

/-- `struct Tree { children: Vec<Tree> }`, `struct Leaf { a: u8, b: Option<String> }`,
`struct Pair { left: Leaf, right: Vec<Leaf> }`. -/
def sampleHdrDefs : String → HdrTy := fun n =>
  if n = "Tree" then .struct [.vec (.named "Tree")]
  else if n = "Pair" then .struct [.named "Leaf", .vec (.named "Leaf")]
  else .struct [.leaf .uint8, .option (.leaf .string)]

theorem sampleHdrDefs_items (n : String) : IsItem (sampleHdrDefs n) := by
  unfold sampleHdrDefs
  split
  · trivial
  · split <;> trivial

theorem tree_endless : Endless sampleHdrDefs "Tree" :=
  ⟨fun n => n = "Tree", rfl, fun m hm => ⟨"Tree", rfl, by
    subst hm; simp [sampleHdrDefs, Mentions, AnyMentions]⟩⟩

/-- A type built from other named types, none of them recursive, writes its header
in two levels of stack. -/
example (e : Nat) (he : 2 ≤ e) : (headerNamed sampleHdrDefs e "Pair").exec
    = (headerWire (.tuple [.tuple [.uint8, .optional .string],
        .array (.tuple [.uint8, .optional .string])]), .ok ()) :=
  C86_writes sampleHdrDefs "Pair" 2 _ (by
    simp [HeaderWithin, sampleHdrDefs, HeaderOf, HeadersOf]) (by
    simp [Countable, AllCountable]) e he

/-- `Tree::serialize_header` writes a tuple code, a count and an array code per
level, until the stack ends. -/
theorem C86_witness (d : Nat) : (headerNamed sampleHdrDefs d "Tree").exec =
    ((List.replicate d [Header.TUPLE_CODE, 1, Header.ARRAY_CODE]).flatten,
      .panic .stackOverflow) := by
  induction d with
  | zero => rfl
  | succ d ih =>
    have hb : Derive.put (Derive.TUPLE_CODE :: Derive.countBytes [HdrTy.vec (.named "Tree")].length)
        = Derive.put [Header.TUPLE_CODE, 1] := congrArg Derive.put (by decide +kernel)
    rw [headerNamed, show sampleHdrDefs "Tree" = .struct [.vec (.named "Tree")] by
      simp [sampleHdrDefs], headerBody, hb, headerAll, headerAll, headerBody, headerBody]
    have key : ∀ p : WProg IoErr, p.exec.2 = .panic .stackOverflow →
        (p.andThen .skip).exec = p.exec := by
      intro p hp
      induction p with
      | done o => cases o <;> first | rfl | (simp [WProg.exec] at hp)
      | writeAll bs f k ihk =>
        simp only [WProg.andThen, WProg.exec] at hp ⊢
        rw [ihk hp]
    rw [WProg.exec_andThen_ok (Derive.exec_put _), key, WProg.exec_andThen_ok (Derive.exec_put _), ih]
    · simp [List.replicate_succ]
    · rw [WProg.exec_andThen_ok (Derive.exec_put _), ih]

end Dlhn.Props
