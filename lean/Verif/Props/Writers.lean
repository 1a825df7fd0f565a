import Verif.Proof.WritersMax
import Verif.Props.Log
/-!
# C135: several writers on one stream

Threads or processes write values to one file, pipe or connection, without agreeing on whose turn
it is. A call of `write` takes all of its buffer and is not interrupted by another (a file opened
with `append(true)`, a pipe, a `Mutex` around the stream that is locked by `write`); `Interleaves`
(Spec/Writers.lean) says in which orders the calls can come. What is in the stream at some moment
is `calls.flatten`, or a beginning of it if the machine crashed.
-/
namespace Dlhn.Props

open Spec hiding variantFields
open De Derive

variable {σ : Type} {step : RStep σ}

/-! ## How many calls -/

/-- A value takes no more calls of `write` than its type says. -/
theorem C135_calls (t : Target) (ty : Ty) (n : Nat) (hn : maxWrites ty = some n) (v : Val)
    (hv : Has t ty v) : (writes (Ser.ser v)).length ≤ n :=
  calls_ser t ty n hn v hv

/-- The limit is reached. -/
theorem C135_reached (t : Target) (ty : Ty) (hs : Supported ty) (hp : Populated ty) (n : Nat)
    (hn : maxWrites ty = some n) : ∃ v, Has t ty v ∧ (writes (Ser.ser v)).length = n := by
  obtain ⟨v, h1, -, h2⟩ := (reaches_ty (t := t) ty hs hp).top n hn
  exact ⟨v, h1, h2⟩

/-- Where there is no limit, values take as many calls as there can be elements. -/
theorem C135_unlimited (t : Target) (ty : Ty) (hs : Supported ty) (hp : Populated ty)
    (hn : maxWrites ty = none) (k : Nat) (hk : k < 2 ^ t.ptr.bits) :
    ∃ v, Has t ty v ∧ k ≤ (writes (Ser.ser v)).length := by
  obtain ⟨n, h1, v, h2, -, h3⟩ := (reaches_ty (t := t) ty hs hp).above hn k hk
  exact ⟨v, h2, by omega⟩

/-- The calls write the value. -/
theorem C135_bytes (v : Val) : (writes (Ser.ser v)).flatten = (Ser.toVec v).1 :=
  flatten_writes _

example : maxWrites (.enum "E" [("A", .unit), ("B", .unit)]) = some 1 ∧
    maxWrites (.seq .unit) = some 1 ∧ maxWrites (.option .u64) = some 2 ∧
    maxWrites (.struct "P" [("x", .f32), ("s", .string)]) = some 3 ∧
    maxWrites (.seq .u8) = none := by decide +kernel

/-! ## What `Interleaves` says -/

/-- Each writer's elements come in its order, and nothing is lost or repeated. -/
theorem C135_order {β : Type} {ls ls' : List (List β)} {vs : List β} (h : Interleaves ls vs ls') :
    ls.flatten.Perm (vs ++ ls'.flatten) ∧ ls'.length = ls.length ∧
      ∀ (i : Nat) (l : List β), ls[i]? = some l →
        ∃ a b : List β, l = a ++ b ∧ a.Sublist vs ∧ ls'[i]? = some b :=
  ⟨h.perm, h.sublist⟩

/-! ## Values that take one call -/

theorem writes_stream (t : Target) (ty : Ty) (hs : Supported ty) (h0 : 0 < minSize ty)
    (h1 : maxWrites ty = some 1) : (vs : List Val) → (∀ v ∈ vs, Has t ty v) →
    writes (writeStream vs) = vs.map fun v => (Ser.toVec v).1
  | [], _ => rfl
  | v :: vs, hv => by
    have hx := hv v List.mem_cons_self
    obtain ⟨enc, g1, -⟩ := C103_typed t ty hs v hx
    have hok : (Ser.ser v).exec.2 = .ok () := by
      have : (Ser.ser v).exec = (enc, .ok ()) := g1
      rw [this]
    rw [writeStream, writes_andThen hok, writes_single (calls_ser t ty 1 h1 v hx)
      (nonempty_of_has t ty hs h0 v hx),
      writes_stream t ty hs h0 h1 vs fun u hu => hv u (List.mem_cons_of_mem _ hu)]
    rfl

/-- If the values of a type take one call, any number of writers may serialize them straight to
the stream, each at its own speed, and whatever reader delivers what is there at some moment, or
a beginning of it: the loop returns whole values, in some order that keeps every writer's own. -/
theorem C135_whole (hl : step.Lawful) (t : Target) (hm : 4096 ≤ t.memLimit) (ty : Ty)
    (hs : Supported ty) (h0 : 0 < minSize ty) (h1 : maxWrites ty = some 1)
    (hi : ∃ w, Has t ty w) (writers : List (List Val)) (hv : ∀ l ∈ writers, ∀ v ∈ l, Has t ty v)
    {calls : List (List UInt8)} {todo : List (List (List UInt8))}
    (hc : Interleaves (writers.map fun l => writes (writeStream l)) calls todo) {s s' : σ}
    {cs : List ReadRes} {vs : List Val} {e : DeErr} (h : ReadsOut step t (de t ty) s cs vs e s')
    (hd : handed cs <+: calls.flatten) :
    e = .read ∧ ∃ order left torn, Interleaves writers order left ∧
      calls = (order.map fun v => (Ser.toVec v).1) ∧
      todo = (left.map fun l => writes (writeStream l)) ∧
      CompleteIn (fun v => (Ser.toVec v).1) order (handed cs) vs torn := by
  have he : (writers.map fun l => writes (writeStream l)) =
      writers.map (·.map fun v => (Ser.toVec v).1) :=
    List.map_congr_left fun l hl => writes_stream t ty hs h0 h1 l (hv l hl)
  obtain ⟨order, left, k1, rfl, rfl⟩ := hc.of_map writers he
  have hord : ∀ v ∈ order, Has t ty v := by
    intro v hx
    obtain ⟨l, hl, hvl⟩ := k1.mem v hx
    exact hv l hl v hvl
  obtain ⟨i1, -, torn, i2⟩ := C130_reader hl t hm ty hs h0 hi order hord h hd
  refine ⟨i1, order, left, torn, k1, rfl, ?_, i2⟩
  refine List.map_congr_left fun l hl => (writes_stream t ty hs h0 h1 l fun v hx => ?_).symm
  obtain ⟨m, hm, hvm⟩ := k1.left_mem l hl v hx
  exact hv m hm v hvm

/-- When all writers are done, a reader of all of it gets all values. -/
theorem C135_all (t : Target) (hm : 4096 ≤ t.memLimit) (ty : Ty)
    (hs : Supported ty) (h0 : 0 < minSize ty) (h1 : maxWrites ty = some 1)
    (hi : ∃ w, Has t ty w) (writers : List (List Val)) (hv : ∀ l ∈ writers, ∀ v ∈ l, Has t ty v)
    {calls : List (List UInt8)} {todo : List (List (List UInt8))}
    (hc : Interleaves (writers.map fun l => writes (writeStream l)) calls todo)
    (hdone : ∀ l ∈ todo, l = []) {cs : List ReadRes} {vs : List Val} {e : DeErr}
    {s' : List UInt8} (h : ReadsOut fileStep t (de t ty) calls.flatten cs vs e s') :
    e = .read ∧ s' = [] ∧ vs.Perm writers.flatten ∧ ∀ l ∈ writers, l.Sublist vs := by
  have he : (writers.map fun l => writes (writeStream l)) =
      writers.map (·.map fun v => (Ser.toVec v).1) :=
    List.map_congr_left fun l hl => writes_stream t ty hs h0 h1 l (hv l hl)
  obtain ⟨order, left, k1, rfl, rfl⟩ := hc.of_map writers he
  have hord : ∀ v ∈ order, Has t ty v := by
    intro v hx
    obtain ⟨l, hl, hvl⟩ := k1.mem v hx
    exact hv l hl v hvl
  obtain ⟨rfl, i1, i2⟩ := C130_all t hm ty hs h0 hi order hord h
  have hleft : ∀ l ∈ left, l = [] := fun l hl =>
    List.map_eq_nil_iff.mp (hdone _ (List.mem_map_of_mem hl))
  refine ⟨i1, i2, ?_, fun l hl => ?_⟩
  · have := k1.perm
    rw [List.flatten_eq_nil_iff.mpr hleft, List.append_nil] at this
    exact this.symm
  · obtain ⟨i, hi⟩ := List.mem_iff_getElem?.mp hl
    obtain ⟨a, b, rfl, g1, g2⟩ := k1.sublist.2 i l hi
    rw [hleft b (List.mem_of_getElem? g2), List.append_nil]
    exact g1

/-- Two writers of `u32`s, one of which is ahead of the other. -/
example (t : Target) : ∃ calls todo,
    Interleaves ([[.u32 1, .u32 300], [.u32 7]].map fun l => writes (writeStream l)) calls todo ∧
      calls.flatten = [1, 236, 18, 0, 0, 7].take 1 ++ [7] ∧ todo.length = 2 ∧
      (∀ v ∈ [Val.u32 1, .u32 300, .u32 7], Has t .u32 v) ∧ maxWrites .u32 = some 1 := by
  refine ⟨[[1], [7]], _, .take 0 (by rfl) (.take 1 (by rfl) .stop), by decide, by decide, ?_, rfl⟩
  intro v hv
  simp only [List.mem_cons, List.not_mem_nil, or_false] at hv
  rcases hv with rfl | rfl | rfl <;> simp [Has]

/-! ## Values that take more calls -/

/-- Writers of pairs that serialize straight to the stream: pairs come out that nobody wrote,
without any error. -/
theorem C135_mixed (t : Target) : ∃ calls,
    Interleaves ([[.tuple [.u8 1, .u8 2]], [.tuple [.u8 3, .u8 4]]].map fun l =>
      writes (writeStream l)) calls [[], []] ∧
    readStream t [.tuple [.u8, .u8], .tuple [.u8, .u8]] calls.flatten =
      .ok ([.tuple [.u8 1, .u8 3], .tuple [.u8 2, .u8 4]], []) := by
  refine ⟨[[1], [3], [2], [4]], .take 0 (by rfl) (.take 1 (by rfl) (.take 0 (by rfl)
    (.take 1 (by rfl) .stop))), ?_⟩
  rfl

/-- Even with one field that is text: the length is one call and the text another. -/
theorem C135_mixed_text : ∃ calls,
    Interleaves ([[.str "ab"], [.str "c"]].map fun l => writes (writeStream l)) calls [[], []] ∧
    ∀ t, 4096 ≤ t.memLimit →
      readStream t [.string] calls.flatten = .ok ([.str "\x01a"], [98, 99]) := by
  refine ⟨[[2], [1], [97, 98], [99]], .take 0 (by rfl) (.take 1 (by rfl) (.take 0 (by rfl)
    (.take 1 (by rfl) .stop))), ?_⟩
  intro t hm
  obtain ⟨enc, h1, h2⟩ := C07_roundtrip t hm .string trivial (.str "\x01a") (by
    rw [Has]
    refine ⟨_, rfl, ?_⟩
    cases t.ptr <;> decide +kernel)
  have he : enc = [2, 1, 97] := by
    have h3 : Ser.toVec (.str "\x01a") = ([2, 1, 97], .ok ()) := by decide +kernel
    rw [h3] at h1
    exact (Prod.mk.inj h1).1.symm
  subst he
  rw [readStream, show ([[2], [1], [97, 98], [99]] : List (List UInt8)).flatten =
    [2, 1, 97] ++ [98, 99] from rfl, h2 [98, 99]]
  rfl

/-! ## One call for each value -/

/-- Each writer serializes each value into a `Vec<u8>` and passes that to the stream in one call:
then it holds for values of every type. -/
theorem C135_buffered (hl : step.Lawful) (t : Target) (hm : 4096 ≤ t.memLimit) (ty : Ty)
    (hs : Supported ty) (h0 : 0 < minSize ty) (hi : ∃ w, Has t ty w) (writers : List (List Val))
    (hv : ∀ l ∈ writers, ∀ v ∈ l, Has t ty v) {calls : List (List UInt8)}
    {todo : List (List (List UInt8))}
    (hc : Interleaves (writers.map (·.map fun v => (Ser.toVec v).1)) calls todo) {s s' : σ}
    {cs : List ReadRes} {vs : List Val} {e : DeErr} (h : ReadsOut step t (de t ty) s cs vs e s')
    (hd : handed cs <+: calls.flatten) :
    e = .read ∧ ∃ order left torn, Interleaves writers order left ∧
      calls = (order.map fun v => (Ser.toVec v).1) ∧
      todo = left.map (·.map fun v => (Ser.toVec v).1) ∧
      CompleteIn (fun v => (Ser.toVec v).1) order (handed cs) vs torn := by
  obtain ⟨order, left, k1, rfl, rfl⟩ := hc.of_map writers rfl
  obtain ⟨i1, -, torn, i2⟩ := C130_reader hl t hm ty hs h0 hi order (fun v hx => by
    obtain ⟨l, hl, hvl⟩ := k1.mem v hx
    exact hv l hl v hvl) h hd
  exact ⟨i1, order, left, torn, k1, rfl, rfl, i2⟩

/-- The same for dynamic values. -/
theorem C135_buffered_body (hl : step.Lawful) (t : Target) (hm : 4096 ≤ t.memLimit)
    (mode : BuildMode) (size : Nat) (h : Header) (writers : List (List Body))
    (hv : ∀ l ∈ writers, ∀ b ∈ l, Body.validate h b = true ∧ Exists t b ∧ CleanDecimals b ∧
      DatesFit mode b ∧ VectorsFit t size b) {calls : List (List UInt8)}
    {todo : List (List (List UInt8))}
    (hc : Interleaves (writers.map (·.map fun b => (Body.toVec mode b).1)) calls todo)
    (he : calls.flatten ≠ []) {s s' : σ} {cs : List ReadRes} {bs : List Body} {e : DeErr}
    (hr : ReadsOut step t (Body.de t mode size h) s cs bs e s') (hd : handed cs <+: calls.flatten) :
    e = .read ∧ ∃ order left torn, Interleaves writers order left ∧
      calls = (order.map fun b => (Body.toVec mode b).1) ∧
      todo = left.map (·.map fun b => (Body.toVec mode b).1) ∧
      CompleteIn (fun b => (Body.toVec mode b).1) order (handed cs) bs torn := by
  obtain ⟨order, left, k1, rfl, rfl⟩ := hc.of_map writers rfl
  obtain ⟨i1, -, torn, i2⟩ := C130_body hl t hm mode size h order (fun b hx => by
    obtain ⟨l, hl, hvl⟩ := k1.mem b hx
    exact hv l hl b hvl) (exists_of_flatten he) hr hd
  exact ⟨i1, order, left, torn, k1, rfl, rfl, i2⟩

/-- The same for derived types; what is returned for `v` is what comes back of it
(property C71). -/
theorem C135_buffered_derived (hl : step.Lawful) (t : Target) (hm : 4096 ≤ t.memLimit)
    (mode : BuildMode) (env : Derive.Env) (ho : FairOrder env) (T : RTy)
    (writers : List (List (Derive.Carrier T)))
    (hv : ∀ l ∈ writers, ∀ v ∈ l, ReadsBack t mode env ⟨T, v⟩) {calls : List (List UInt8)}
    {todo : List (List (List UInt8))}
    (hc : Interleaves (writers.map (·.map fun v => (Derive.ser mode T v).exec.1)) calls todo)
    (he : calls.flatten ≠ []) {s s' : σ} {cs : List ReadRes} {ws : List (Derive.Carrier T)}
    {e : DeErr} (hr : ReadsOut step t (Derive.deTy t mode env T) s cs ws e s')
    (hd : handed cs <+: calls.flatten) :
    e = .read ∧ ∃ order left vs torn, Interleaves writers order left ∧
      calls = (order.map fun v => (Derive.ser mode T v).exec.1) ∧
      todo = left.map (·.map fun v => (Derive.ser mode T v).exec.1) ∧
      Pointwise (Returned env T) vs ws ∧
      CompleteIn (fun v => (Derive.ser mode T v).exec.1) order (handed cs) vs torn := by
  obtain ⟨order, left, k1, rfl, rfl⟩ := hc.of_map writers rfl
  obtain ⟨i1, -, vs, torn, i2, i3⟩ := C130_derived hl t hm mode env ho T order (fun v hx => by
    obtain ⟨l, hl, hvl⟩ := k1.mem v hx
    exact hv l hl v hvl) (exists_of_flatten he) hr hd
  exact ⟨i1, order, left, vs, torn, k1, rfl, rfl, i2, i3⟩

/-- Two writers of strings, of which the second has written nothing yet. -/
example (t : Target) : ∃ calls todo,
    Interleaves ([[.str "ab", .str ""], [.str "c"]].map (·.map fun v => (Ser.toVec v).1)) calls
      todo ∧ calls.flatten = [2, 97, 98, 0] ∧
      ∀ v ∈ [Val.str "ab", .str "", .str "c"], Has t .string v := by
  refine ⟨[[2, 97, 98], [0]], _, .take 0 (by rfl) (.take 0 (by rfl) .stop), by decide, ?_⟩
  intro v hv
  simp only [List.mem_cons, List.not_mem_nil, or_false] at hv
  rcases hv with rfl | rfl | rfl <;> (rw [Has]; refine ⟨_, rfl, ?_⟩; cases t.ptr <;> decide +kernel)

end Dlhn.Props
