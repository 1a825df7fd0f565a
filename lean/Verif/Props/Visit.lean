import Verif.Proof.Visit
import Verif.Proof.BodySer
import Verif.Props.Io
/-!
# C87-C88: hand-written `Deserialize` implementations

An `Impl α` (Model/Visit.lean) is any code that uses the deserializer and the
access objects it hands out, and passes errors on. `Impl.run` is what it does.
`implOf ty` (Model/VisitStd.lean) is the implementation serde or serde_derive
provides for `ty`.
-/
namespace Dlhn.Props

open Spec De

/-- A hand-written implementation: a version byte, then depending on it a string, a
pair of the first element of a list and its last one, or an error. -/
def sampleImpl : Impl (String × Nat) :=
  .andThen .u8 fun version =>
    if version = 0 then .andThen .string fun s => .ok (s, 0)
    else if version = 1 then .seq fun n => .next .u32 fun
      | none => .error (.message "empty")
      | some x => last x n
    else .error (.message "version")
where
  /-- Ask until `None` and return the last element. -/
  last (x : UInt32) : Nat → SeqImpl (String × Nat)
    | 0 => .ok ("", x.toNat)
    | n + 1 => .next .u32 fun
      | none => .ok ("", x.toNat)
      | some y => last y n

theorem sampleImpl_noTodo : NoTodo sampleImpl := by
  have hl : ∀ (n : Nat) (x : UInt32), SeqNoTodo (sampleImpl.last x n) := by
    intro n
    induction n with
    | zero => intro x; simp [sampleImpl.last, SeqNoTodo]
    | succ n ih =>
      intro x
      rw [sampleImpl.last, SeqNoTodo]
      refine ⟨by simp [NoTodo], fun b => ?_⟩
      cases b with
      | none => simp [SeqNoTodo]
      | some y => exact ih y
  rw [sampleImpl, NoTodo]
  refine ⟨by simp [NoTodo], fun v => ?_⟩
  split
  · simp [NoTodo]
  · split
    · rw [NoTodo]
      refine fun n => ⟨by simp [NoTodo], fun b => ?_⟩
      cases b with
      | none => simp [SeqNoTodo]
      | some y => exact hl _ y
    · simp [NoTodo]

example (t : Target) (ht : t = ⟨.w64, 4096⟩) :
    Prog.run t (sampleImpl.run t) [1, 3, 10, 20, 30, 99] = .ok (("", 30), [99]) ∧
    Prog.run t (sampleImpl.run t) [0, 2, 104, 105] = .ok (("hi", 0), []) ∧
    Prog.run t (sampleImpl.run t) [1, 0] = .err (.message "empty") ∧
    Prog.run t (sampleImpl.run t) [1, 3, 10, 20] = .err .read := by
  subst ht; decide +kernel

/-! ## C87 guarantees for every implementation -/

/-- The implementations serde and serde_derive provide, written with their visitors'
loops and slots, do what `De.de` says, so all results about `De.de` are about them.
(Rust does not allow two fields of one name.) -/
theorem C87_standard (t : Target) (ty : Ty) (h : DistinctFields ty) :
    (implOf ty).run t = de t ty := run_implOf t ty h

example : DistinctFields sampleTy := by
  simp [sampleTy, DistinctFields, FieldsDistinct, VariantsDistinct, PayloadDistinct, AllDistinct]

/-- The result depends on the bytes a reader delivers only, not on chunks,
interruptions, buffer sizes or how the data end. -/
theorem C87_reader (t : Target) {α : Type} (i : Impl α)
    (ht : t.ptr = .w64 ∨ NoTextImpl i) (size : Nat → Nat)
    (s : Script) :
    (Prog.runScript t size (i.run t) s).map (fun (v, s') => (v, s'.bytes))
      = Prog.run t (i.run t) s.bytes := by
  have hst := strict_on_impl ht
  have h := Prog.runScript_spec t size hst s
  have he : Prog.exec t s.ending (i.run t) s.bytes = Prog.run t (i.run t) s.bytes := by
    rcases Prog.exec_ending t s.ending .eof hst s.bytes with h | ⟨h1, h2⟩
    · exact h
    · rw [h1, Prog.run, h2]; rfl
  rw [he] at h
  cases hr : Prog.run t (i.run t) s.bytes with
  | ok a =>
    rw [hr] at h
    obtain ⟨s', h1, h2, -⟩ := h
    rw [h1, Outcome.map]; simp only [h2]
  | err e => rw [hr] at h; simp only at h; rw [h]; rfl
  | panic q => rw [hr] at h; simp only at h; rw [h]; rfl

/-- What it accepts is a prefix of the input that it accepts before any other
continuation as well, with the same result, and every shorter prefix is
`Err(Read)`. -/
theorem C87_local (t : Target) {α : Type} (i : Impl α)
    (ht : t.ptr = .w64 ∨ NoTextImpl i) (bs rest : List UInt8)
    (v : α) (h : Prog.run t (i.run t) bs = .ok (v, rest)) :
    ∃ used, bs = used ++ rest ∧
      (∀ rest', Prog.run t (i.run t) (used ++ rest') = .ok (v, rest')) ∧
      ∀ short, short <+: used → short ≠ used → Prog.run t (i.run t) short = .err .read := by
  have hst := strict_on_impl ht
  obtain ⟨used, h1, h2, h3⟩ := Prog.exec_split t .eof hst h
  refine ⟨used, h1, fun rest' => h2 .eof rest', fun short hp hne => ?_⟩
  exact h3 .eof short hp hne

/-- It returns `Ok` or `Err` on every reader, unless it asks for something the
deserializer has no code for. -/
theorem C87_returns (t : Target) (hm : 4096 ≤ t.memLimit) {α : Type} (i : Impl α) (h : NoTodo i)
    (size : Nat → Nat) (s : Script) : (Prog.runScript t size (i.run t) s).returns :=
  (closed_impl (closed_total hm) i (.inl h)).runScript size s

example (t : Target) (hm : 4096 ≤ t.memLimit) (size : Nat → Nat) (s : Script) :
    (Prog.runScript t size (sampleImpl.run t) s).returns :=
  C87_returns t hm sampleImpl sampleImpl_noTodo size s

/-- And if it does, that is the only way it can panic. -/
theorem C87_panics (t : Target) (hm : 4096 ≤ t.memLimit) {α : Type} (i : Impl α) (fin : Ending)
    (bs : List UInt8) (q : PanicKind) (h : Prog.exec t fin (i.run t) bs = .panic q) :
    q = .todo := by
  exact (closed_impl (Body.closed_panicsIn hm (· = .todo)) i (.inr fun _ fin bs q h => by
    simpa [Prog.exec] using h.symm)) fin bs q h

example (t : Target) : Prog.run t ((Impl.andThen .u8 fun n =>
    if n = 0 then .ok 0 else .ignoredAny : Impl Nat).run t) [7] = .panic .todo := by
  simp [Impl.run, Prog.run, Prog.exec_bind, deU8_wire t .eof 7 [], Prog.exec]

/-- Asking for it always panics, whatever the input. -/
theorem C87_todo (t : Target) {α : Type} (bs : List UInt8) :
    Prog.run t ((Impl.any : Impl α).run t) bs = .panic .todo ∧
    Prog.run t ((Impl.str : Impl α).run t) bs = .panic .todo ∧
    Prog.run t ((Impl.bytes : Impl α).run t) bs = .panic .todo ∧
    Prog.run t ((Impl.ignoredAny : Impl α).run t) bs = .panic .todo := by
  simp [Impl.run, Prog.run, Prog.exec]

/-- The deserializer never asks for more than 4096 bytes of memory at once on its
behalf, whatever lengths the input announces. -/
theorem C87_alloc (t : Target) {α : Type} (i : Impl α) (fin : Ending) (bs : List UInt8) :
    ∀ n ∈ Prog.requests t fin (i.run t) bs, n ≤ 4096 :=
  (closed_impl (closed_allocLe t) i (.inr fun _ => trivial)).requests t fin bs

/-! ## C88 what visitors are given -/

/-- What is left in the reader, and the result, given what a visitor made of the
elements. -/
def afterVisit {α β : Type} (enc : β → List UInt8) (more : List UInt8) :
    Except DeErr α × List β → Outcome DeErr (α × List UInt8)
  | (.ok a, rest) => .ok (a, rest.flatMap enc ++ more)
  | (.error e, _) => .err e

theorem fed_eq {α β : Type} (enc : β → List UInt8) (more : List UInt8)
    (x : Except DeErr α × List β) : fed (·.flatMap enc) more x = afterVisit enc more x := by
  obtain ⟨r, l⟩ := x
  cases r <;> rfl

/-- A visitor of a sequence is given exactly the elements that were serialized, in
order, and then `None` as often as it asks; it is free to stop or fail at any
point, and the bytes of the elements it did not ask for stay in the reader, before
what follows. -/
theorem C88_seq (t : Target) (hm : 4096 ≤ t.memLimit) (ty : Ty) (hs : Supported ty)
    (hd : DistinctFields ty) (vs : List Val) (hv : Has t (.seq ty) (.seq (some vs.length) vs))
    {α : Type} (visitor : Asker Val α) (more : List UInt8) :
    Prog.run t ((Impl.seq fun _ => visitor.visitSeq (implOf ty)).run t)
        ((Ser.toVec (.seq (some vs.length) vs)).1 ++ more)
      = afterVisit (fun w => (Ser.toVec w).1) more (visitor.feed vs) := by
  obtain ⟨ws, hw, hlt, hall⟩ := hv
  simp only [Val.seq.injEq] at hw
  obtain ⟨-, rfl⟩ := hw
  have hok := has_ok t (.seq ty) hs _ ⟨vs, rfl, hlt, hall⟩
  have he : ∀ w ∈ vs, (Ser.toVec w).1 = wire w := fun w hw => by
    have := has_ok t ty hs w (hall w hw)
    rw [Ser.toVec, Ser.exec_ser w this.1 this.2]
  have hw : wire (.seq (some vs.length) vs)
      = varint 64 vs.length ++ vs.flatMap fun w => (Ser.toVec w).1 := by
    rw [wire, lengthPrefix, wireAll_eq, List.flatMap_def, List.map_congr_left he]
  rw [Ser.toVec, Ser.exec_ser _ hok.1 hok.2]
  simp only [hw, Impl.run]
  rw [Prog.run, Prog.exec_bind, List.append_assoc, exec_u64_varint _ _ _ (lt_64_of_lt_bits hlt),
    Prog.next_ok, asUsize_ofNat hlt, exec_visitSeq t .eof _ _ more visitor vs, fed_eq]
  intro b hb rest
  rw [he b hb, run_implOf t ty hd]
  exact de_wire t hm ty hs b (hall b hb) .eof rest

/-- The same for maps, where the visitor asks for entries. -/
theorem C88_map (t : Target) (hm : 4096 ≤ t.memLimit) (kt vt : Ty) (hs : Supported (.map kt vt))
    (hd : DistinctFields (.map kt vt)) (es : List (Val × Val))
    (hv : Has t (.map kt vt) (.map (some es.length) es))
    {α : Type} (visitor : Asker (Val × Val) α) (more : List UInt8) :
    Prog.run t ((Impl.map fun _ => visitor.visitMap (implOf kt) (implOf vt)).run t)
        ((Ser.toVec (.map (some es.length) es)).1 ++ more)
      = afterVisit (fun e => (Ser.toVec e.1).1 ++ (Ser.toVec e.2).1) more (visitor.feed es) := by
  obtain ⟨ws, hw, hlt, hall⟩ := hv
  simp only [Val.map.injEq] at hw
  obtain ⟨-, rfl⟩ := hw
  have hok := has_ok t (.map kt vt) hs _ ⟨es, rfl, hlt, hall⟩
  obtain ⟨rfl, hsv⟩ := hs
  have he : ∀ e ∈ es, (Ser.toVec e.1).1 = wire e.1 ∧ (Ser.toVec e.2).1 = wire e.2 := fun e hm' => by
    have h1 := has_ok t .string trivial e.1 (hall e hm').1
    have h2 := has_ok t vt hsv e.2 (hall e hm').2
    rw [Ser.toVec, Ser.toVec, Ser.exec_ser _ h1.1 h1.2, Ser.exec_ser _ h2.1 h2.2]
    exact ⟨rfl, rfl⟩
  have hw : wire (.map (some es.length) es)
      = varint 64 es.length ++ es.flatMap fun e => (Ser.toVec e.1).1 ++ (Ser.toVec e.2).1 := by
    rw [wire, lengthPrefix, wireEntries_eq, List.flatMap_def]
    congr 2
    exact List.map_congr_left fun e hm' => by rw [(he e hm').1, (he e hm').2]
  rw [Ser.toVec, Ser.exec_ser _ hok.1 hok.2]
  simp only [hw, Impl.run]
  rw [Prog.run, Prog.exec_bind, List.append_assoc, exec_u64_varint _ _ _ (lt_64_of_lt_bits hlt),
    Prog.next_ok, asUsize_ofNat hlt, exec_visitMap t .eof _ _ _ more visitor es, fed_eq]
  intro e hm' rest
  refine ⟨wire e.2 ++ rest, ?_, ?_⟩
  · rw [(he e hm').1, (he e hm').2, run_implOf t .string trivial, List.append_assoc]
    exact de_wire t hm .string trivial e.1 (hall e hm').1 .eof _
  · rw [run_implOf t vt hd.2]
    exact de_wire t hm vt hsv e.2 (hall e hm').2 .eof rest

/-- The same for arrays `[T; n]`, which have no length prefix. -/
theorem C88_array (t : Target) (hm : 4096 ≤ t.memLimit) (ty : Ty) (hs : Supported ty)
    (hd : DistinctFields ty) (vs : List Val) (hv : ∀ v ∈ vs, Has t ty v)
    {α : Type} (visitor : Asker Val α) (more : List UInt8) :
    Prog.run t ((Impl.tuple vs.length fun _ => visitor.visitSeq (implOf ty)).run t)
        ((Ser.toVec (.tuple vs)).1 ++ more)
      = afterVisit (fun w => (Ser.toVec w).1) more (visitor.feed vs) := by
  have hok := fun w hw => has_ok t ty hs w (hv w hw)
  have he : ∀ w ∈ vs, (Ser.toVec w).1 = wire w := fun w hw => by
    rw [Ser.toVec, Ser.exec_ser w (hok w hw).1 (hok w hw).2]
  have hw : wire (.tuple vs) = vs.flatMap fun w => (Ser.toVec w).1 := by
    rw [wire, wireAll_eq, List.flatMap_def, List.map_congr_left he]
  rw [Ser.toVec, Ser.exec_ser _ (show Serializable (.tuple vs) from
    (allSerializable_iff vs).mpr fun w hw => (hok w hw).1) (show Fits (.tuple vs) from
    (allFit_iff vs).mpr fun w hw => (hok w hw).2)]
  simp only [hw, Impl.run]
  rw [Prog.run, exec_visitSeq t .eof _ _ more visitor vs, fed_eq]
  intro b hb rest
  rw [he b hb, run_implOf t ty hd]
  exact de_wire t hm ty hs b (hv b hb) .eof rest

/-- The keys a struct's visitor is given are the field names it announced, whatever
the input, and asking for them reads nothing. -/
theorem C88_keys (t : Target) (name : String) (fields : List String) {α : Type}
    (visitor : Asker String α) (fin : Ending) (bs : List UInt8) :
    Prog.exec t fin ((Impl.struct name fields visitor.visitKeys).run t) bs
      = match (visitor.feed fields).1 with
        | .ok a => .ok (a, bs)
        | .error e => .err e := by
  rw [Impl.run, exec_visitKeys]
  obtain ⟨r, l⟩ := visitor.feed fields
  cases r <;> rfl

/-- A visitor that takes `k` elements and stops. -/
def takeOnly {β : Type} : Nat → List β → Asker β (List β)
  | 0, acc => .ok acc
  | k + 1, acc => .next fun
    | none => .ok acc
    | some b => takeOnly k (acc ++ [b])

theorem feed_takeOnly {β : Type} : (k : Nat) → (acc bs : List β) →
    (takeOnly k acc).feed bs = (.ok (acc ++ bs.take k), bs.drop k)
  | 0, acc, bs => by simp [takeOnly, Asker.feed]
  | k + 1, acc, [] => by simp [takeOnly, Asker.feed]
  | k + 1, acc, b :: bs => by simp [takeOnly, Asker.feed, feed_takeOnly k]

/-- Nothing skips the rest: after a visitor that stops early, the next value read
from the stream is the first element it left. -/
theorem C88_early (t : Target) (hm : 4096 ≤ t.memLimit) (ty : Ty) (hs : Supported ty)
    (hd : DistinctFields ty) (vs : List Val) (hv : Has t (.seq ty) (.seq (some vs.length) vs))
    (k : Nat) (hk : k < vs.length) (more : List UInt8) :
    Prog.run t ((Impl.andThen (.seq fun _ => (takeOnly k []).visitSeq (implOf ty)) fun xs =>
        .andThen (implOf ty) fun w => .ok (xs, w)).run t)
        ((Ser.toVec (.seq (some vs.length) vs)).1 ++ more)
      = .ok ((vs.take k, vs[k]), (vs.drop (k + 1)).flatMap (fun w => (Ser.toVec w).1) ++ more) := by
  have h := C88_seq t hm ty hs hd vs hv (takeOnly k []) more
  obtain ⟨ws, hw, hlt, hall⟩ := hv
  simp only [Val.seq.injEq] at hw
  obtain ⟨-, rfl⟩ := hw
  rw [feed_takeOnly, List.nil_append, afterVisit, List.drop_eq_getElem_cons hk, List.flatMap_cons,
    List.append_assoc] at h
  have ho := has_ok t ty hs vs[k] (hall _ (List.getElem_mem hk))
  rw [Impl.run, Prog.run, Prog.exec_bind]
  rw [Prog.run] at h
  rw [h, Prog.next_ok, Impl.run, Prog.exec_bind, run_implOf t ty hd]
  rw [show (Ser.toVec vs[k]).1 = wire vs[k] by rw [Ser.toVec, Ser.exec_ser _ ho.1 ho.2],
    de_wire t hm ty hs _ (hall _ (List.getElem_mem hk)), Prog.next_ok, Impl.run, Prog.exec]

/-- The hypotheses are met, and what happens to the stream: reading the first
element of `vec![10u32, 20, 30]` and then a `u32` gives 10 and 20, and 30 stays. -/
example (t : Target) (hm : 4096 ≤ t.memLimit) :
    Prog.run t ((Impl.andThen (.seq fun _ => (takeOnly 1 []).visitSeq (implOf .u32)) fun xs =>
        .andThen (implOf .u32) fun w => .ok (xs, w)).run t) ([3, 10, 20, 30] ++ [99])
      = .ok (([.u32 10], .u32 20), [30, 99]) := by
  have hl : 3 < 2 ^ t.ptr.bits := by cases t.ptr <;> decide
  have h := C88_early t hm .u32 trivial trivial [.u32 10, .u32 20, .u32 30]
    ⟨_, rfl, hl, by simp [Has]⟩ 1 (by decide) [99]
  have e : (Ser.toVec (.seq (some 3) [.u32 10, .u32 20, .u32 30])).1 = [3, 10, 20, 30] := by
    decide +kernel
  have e' : (Ser.toVec (.u32 30)).1 = [30] := by decide +kernel
  simpa [e, e'] using h

end Dlhn.Props
