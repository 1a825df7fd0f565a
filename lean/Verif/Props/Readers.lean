import Verif.Proof.Readers
import Verif.Props.Seek
import Verif.Props.Body
import Verif.Props.DeriveDe
/-!
# C139: several readers on one stream

`Shared t p s s'` (Spec/Readers.lean): from `s`, readers that each read one value after the other
with `p` come to `s'`, in any order of their calls. `dealt vs who i` are the values that go to
reader `i` if value number `j` goes to reader number `who[j]`.
-/
namespace Dlhn.Props

open Spec hiding variantFields
open De

/-! ## C139 -/

theorem dealt_values {t : Target} {n : Nat} {onErr : IoErr → DeErr}
    {d : Vector UInt8 n → Outcome DeErr Val} {p : Prog DeErr Val}
    (hp : p = .readExact n onErr fun b => .done (d b)) (hn : 0 < n) {vs : List Val}
    (hlen : ∀ v ∈ vs, (Ser.toVec v).1.length = n)
    (hd : ∀ v ∈ vs, ∀ more, ∃ rest, Prog.exec t .eof p ((Ser.toVec v).1 ++ more) = .ok (v, rest))
    {k : Nat} {s : Sharing DeErr Val} (h : Shared t p (readers p k, (vs.map fun v => (Ser.toVec v).1).flatten) s) :
    ∃ who, DealtOut p (onErr .unexpectedEof) (fun v => (Ser.toVec v).1) id vs k s who := by
  refine dealtOut hp hn hlen (fun v hv more h' => ?_) h
  obtain ⟨rest, hr⟩ := hd v hv more
  rw [hp, Prog.exec, dif_pos h'] at hr
  cases hx : d (takeVec ((Ser.toVec v).1 ++ more) h') with
  | ok a =>
    rw [hx, Prog.exec] at hr
    simp at hr
    rw [hr.1]
    rfl
  | err e => rw [hx, Prog.exec] at hr; cases hr
  | panic q => rw [hx, Prog.exec] at hr; cases hr

/-- Values of a type of fixed size, read into a buffer by one call and decoded from there by any
number of readers, in any order of their calls: every value goes to one of the readers, whole;
each reader gets its values in their order; nothing is lost that is not read. -/
theorem C139_buffer (t : Target) (hm : 4096 ≤ t.memLimit) (ty : Ty) (hs : Supported ty) (n : Nat)
    (hn : FixedSize t ty n) (hpos : 0 < n) (vs : List Val) (hv : ∀ v ∈ vs, Has t ty v) (k : Nat)
    (rs : List (Prog DeErr Val × List Val)) (bs : List UInt8)
    (h : Shared t (fromBuffer t n (de t ty))
      (readers (fromBuffer t n (de t ty)) k, (vs.map fun v => (Ser.toVec v).1).flatten) (rs, bs)) :
    ∃ who : List Nat, who.length ≤ vs.length ∧ (∀ i ∈ who, i < k) ∧
      bs = ((vs.drop who.length).map fun v => (Ser.toVec v).1).flatten ∧ rs.length = k ∧
      ∀ (i : Nat) q got, rs[i]? = some (q, got) →
        -- between two values
        (q = fromBuffer t n (de t ty) ∧ got = dealt vs who i) ∨
        -- about to hand out a value
        (∃ v, q = .done (.ok v) ∧ got ++ [v] = dealt vs who i) ∨
        -- at the end of the stream
        (q = .done (.err .read) ∧ who.length = vs.length ∧ got = dealt vs who i) := by
  have hread : ∀ v ∈ vs, ∀ more, ∃ rest, Prog.exec t .eof (fromBuffer t n (de t ty))
      ((Ser.toVec v).1 ++ more) = .ok (v, rest) := by
    intro v hvm more
    have hl := fixed_length hs hn (hv v hvm)
    obtain ⟨h1, h2⟩ := has_ok t ty hs v (hv v hvm)
    have hle : n ≤ ((Ser.toVec v).1 ++ more).length := by
      rw [List.length_append, hl]
      omega
    have ht : (takeVec ((Ser.toVec v).1 ++ more) hle).toList = (Ser.toVec v).1 := by
      simp [takeVec, ← hl]
    have hde := de_wire t hm ty hs v (hv v hvm) .eof []
    rw [List.append_nil] at hde
    refine ⟨more, ?_⟩
    rw [fromBuffer, Prog.exec, dif_pos hle, ht, Ser.toVec, Ser.exec_ser v h1 h2]
    dsimp only
    rw [Prog.run, hde]
    simp only [Outcome.map, Prog.exec]
    rw [Ser.toVec, Ser.exec_ser v h1 h2] at hl
    simp [← hl]
  obtain ⟨who, hw⟩ := dealt_values (t := t) (p := fromBuffer t n (de t ty)) rfl hpos
    (fun v hvm => fixed_length hs hn (hv v hvm)) hread h
  exact ⟨who, hw.few, hw.one, hw.rest, hw.len, fun i q got hi => by
    have := hw.each i _ hi
    rwa [List.map_id] at this⟩

theorem oneCall_fixed (t : Target) : (ty : Ty) → (n : Nat) → oneCall ty = some n →
    Supported ty ∧ FixedSize t ty n ∧ 0 < n
  | .bool, n, h | .u8, n, h | .i8, n, h | .f32, n, h | .f64, n, h => by
    simp [oneCall] at h
    subst h
    simp [Supported, FixedSize, minSize, maxSize]
  | .newtypeStruct name ty, n, h => by
    simp [oneCall] at h
    obtain ⟨h1, ⟨h2, h3⟩, h4⟩ := oneCall_fixed t ty n h
    exact ⟨by simpa [Supported] using h1, ⟨by simpa [minSize] using h2, by simpa [maxSize] using h3⟩,
      h4⟩
  | .i16, n, h | .i32, n, h | .i64, n, h | .i128, n, h | .u16, n, h | .u32, n, h | .u64, n, h
  | .u128, n, h | .char, n, h | .string, n, h | .byteBuf, n, h | .str, n, h | .bytes, n, h
  | .any, n, h | .ignoredAny, n, h | .option _, n, h | .unit, n, h | .unitStruct _, n, h
  | .seq _, n, h | .tuple _, n, h | .tupleStruct _ _, n, h | .map _ _, n, h | .struct _ _, n, h
  | .enum _ _, n, h => by simp [oneCall] at h

/-- `bool`, `u8`, `i8`, `f32`, `f64` and newtypes of these can be read from the shared stream
without a buffer, to the same effect. -/
theorem C139_direct (t : Target) (hm : 4096 ≤ t.memLimit) (ty : Ty) (n : Nat)
    (hn : oneCall ty = some n) (vs : List Val) (hv : ∀ v ∈ vs, Has t ty v) (k : Nat)
    (rs : List (Prog DeErr Val × List Val)) (bs : List UInt8)
    (h : Shared t (de t ty) (readers (de t ty) k, (vs.map fun v => (Ser.toVec v).1).flatten) (rs, bs)) :
    ∃ who : List Nat, who.length ≤ vs.length ∧ (∀ i ∈ who, i < k) ∧
      bs = ((vs.drop who.length).map fun v => (Ser.toVec v).1).flatten ∧ rs.length = k ∧
      ∀ (i : Nat) q got, rs[i]? = some (q, got) →
        (q = de t ty ∧ got = dealt vs who i) ∨
        (∃ v, q = .done (.ok v) ∧ got ++ [v] = dealt vs who i) ∨
        (q = .done (.err .read) ∧ who.length = vs.length ∧ got = dealt vs who i) := by
  obtain ⟨hs, hf, hpos⟩ := oneCall_fixed t ty n hn
  obtain ⟨d, hd⟩ := oneCall_read t ty n hn
  have hread : ∀ v ∈ vs, ∀ more, ∃ rest, Prog.exec t .eof (de t ty)
      ((Ser.toVec v).1 ++ more) = .ok (v, rest) := by
    intro v hvm more
    obtain ⟨h1, h2⟩ := has_ok t ty hs v (hv v hvm)
    refine ⟨more, ?_⟩
    rw [Ser.toVec, Ser.exec_ser v h1 h2]
    exact de_wire t hm ty hs v (hv v hvm) .eof more
  obtain ⟨who, hw⟩ := dealt_values (t := t) (p := de t ty) hd hpos
    (fun v hvm => fixed_length hs hf (hv v hvm)) hread h
  exact ⟨who, hw.few, hw.one, hw.rest, hw.len, fun i q got hi => by
    have := hw.each i _ hi
    rwa [List.map_id] at this⟩

/-- For any decoder, with any code, as long as the values that were sent are all of the same
size: bodies, types that derive their implementations, and types with hand-written ones. -/
theorem C139_any {α β : Type} (t : Target) (p : Prog DeErr α) (n : Nat) (hpos : 0 < n)
    (code : β → List UInt8) (back : β → α) (sent : List β)
    (hlen : ∀ v ∈ sent, (code v).length = n)
    (hp : ∀ v ∈ sent, ∃ rest, Prog.run t p (code v) = .ok (back v, rest)) (k : Nat)
    (rs : List (Prog DeErr α × List α)) (bs : List UInt8)
    (h : Shared t (fromBuffer t n p) (readers (fromBuffer t n p) k, (sent.map code).flatten)
      (rs, bs)) :
    ∃ who : List Nat, who.length ≤ sent.length ∧ (∀ i ∈ who, i < k) ∧
      bs = ((sent.drop who.length).map code).flatten ∧ rs.length = k ∧
      ∀ (i : Nat) q got, rs[i]? = some (q, got) →
        (q = fromBuffer t n p ∧ got = dealt (sent.map back) who i) ∨
        (∃ a, q = .done (.ok a) ∧ got ++ [a] = dealt (sent.map back) who i) ∨
        (q = .done (.err .read) ∧ who.length = sent.length ∧ got = dealt (sent.map back) who i) := by
  obtain ⟨who, hw⟩ := dealtOut (t := t) (p := fromBuffer t n p) rfl hpos hlen (fun v hv more h' => by
    obtain ⟨rest, hr⟩ := hp v hv
    have ht : (takeVec (code v ++ more) h').toList = code v := by simp [takeVec, ← hlen v hv]
    rw [ht, hr]
    rfl) h
  exact ⟨who, hw.few, hw.one, hw.rest, hw.len, fun i q got hi => hw.each i _ hi⟩

/-- Dynamic values. -/
theorem C139_bodies (t : Target) (hm : 4096 ≤ t.memLimit) (mode : BuildMode) (size : Nat)
    (h : Header) (n : Nat) (hpos : 0 < n) (sent : List Body)
    (hv : ∀ b ∈ sent, Body.validate h b = true ∧ Spec.Exists t b ∧ CleanDecimals b ∧
      DatesFit mode b ∧ VectorsFit t size b ∧ (Body.toVec mode b).1.length = n) (k : Nat)
    (rs : List (Prog DeErr Body × List Body)) (bs : List UInt8)
    (hs : Shared t (fromBuffer t n (Body.de t mode size h))
      (readers (fromBuffer t n (Body.de t mode size h)) k,
        (sent.map fun b => (Body.toVec mode b).1).flatten) (rs, bs)) :
    ∃ who : List Nat, who.length ≤ sent.length ∧ (∀ i ∈ who, i < k) ∧
      bs = ((sent.drop who.length).map fun b => (Body.toVec mode b).1).flatten ∧ rs.length = k ∧
      ∀ (i : Nat) q got, rs[i]? = some (q, got) →
        (q = fromBuffer t n (Body.de t mode size h) ∧ got = dealt sent who i) ∨
        (∃ b, q = .done (.ok b) ∧ got ++ [b] = dealt sent who i) ∨
        (q = .done (.err .read) ∧ who.length = sent.length ∧ got = dealt sent who i) := by
  have := C139_any t (Body.de t mode size h) n hpos (fun b => (Body.toVec mode b).1) id sent
    (fun b hb => (hv b hb).2.2.2.2.2) (fun b hb => by
      obtain ⟨h1, h2, h3, h4, h5, -⟩ := hv b hb
      obtain ⟨enc, e1, e2⟩ := C35_roundtrip t hm mode size h b h1 h2 h3 h4 h5
      have := e2 []
      rw [List.append_nil] at this
      exact ⟨[], by rw [e1]; exact this⟩) k rs bs hs
  rwa [List.map_id] at this

/-- Types that derive their implementations: `w` is what a value comes back as. -/
theorem C139_derived (t : Target) (hm : 4096 ≤ t.memLimit) (mode : BuildMode) (env : Derive.Env)
    (ho : FairOrder env) (T : RTy) (hr : Readable T) (hsy : Symmetric T) (hd : Defaulted env T)
    (n : Nat) (hpos : 0 < n) (sent : List (Derive.Carrier T))
    (hv : ∀ v ∈ sent, Real t T v ∧ DatesRebase mode T v ∧ InstantsInRange T v ∧
      (Derive.ser mode T v).exec.1.length = n) :
    ∃ w : Derive.Carrier T → Derive.Carrier T, (∀ v ∈ sent, Returned env T v (w v)) ∧
    ∀ (k : Nat) rs bs, Shared t (fromBuffer t n (Derive.deTy t mode env T))
      (readers (fromBuffer t n (Derive.deTy t mode env T)) k,
        (sent.map fun v => (Derive.ser mode T v).exec.1).flatten) (rs, bs) →
    ∃ who : List Nat, who.length ≤ sent.length ∧ (∀ i ∈ who, i < k) ∧
      bs = ((sent.drop who.length).map fun v => (Derive.ser mode T v).exec.1).flatten ∧
      rs.length = k ∧
      ∀ (i : Nat) q got, rs[i]? = some (q, got) →
        (q = fromBuffer t n (Derive.deTy t mode env T) ∧ got = dealt (sent.map w) who i) ∨
        (∃ a, q = .done (.ok a) ∧ got ++ [a] = dealt (sent.map w) who i) ∨
        (q = .done (.err .read) ∧ who.length = sent.length ∧ got = dealt (sent.map w) who i) := by
  have hx : ∀ v, ∃ w, v ∈ sent → Returned env T v w ∧
      Prog.run t (Derive.deTy t mode env T) (Derive.ser mode T v).exec.1 = .ok (w, []) := by
    intro v
    by_cases hvs : v ∈ sent
    · obtain ⟨h1, h2, h3, -⟩ := hv v hvs
      obtain ⟨w, bs, e1, e2, e3⟩ := C71_roundtrip t hm mode env ho T hr hsy hd v h1 h2 h3
      have := e3 .eof []
      rw [List.append_nil] at this
      exact ⟨w, fun _ => ⟨e2, by rw [e1]; exact this⟩⟩
    · exact ⟨v, fun h => absurd h hvs⟩
  exact ⟨fun v => (hx v).choose, fun v hvs => ((hx v).choose_spec hvs).1, fun k rs bs =>
    C139_any t (Derive.deTy t mode env T) n hpos (fun v => (Derive.ser mode T v).exec.1)
      (fun v => (hx v).choose) sent (fun v hvs => (hv v hvs).2.2.2)
      (fun v hvs => ⟨[], ((hx v).choose_spec hvs).2⟩) k rs bs⟩

/-- When all readers have stopped at the end of the stream, all values were handed out: the
readers have what was written, dealt out among them. -/
theorem C139_all (t : Target) (hm : 4096 ≤ t.memLimit) (ty : Ty) (hs : Supported ty) (n : Nat)
    (hn : FixedSize t ty n) (hpos : 0 < n) (vs : List Val) (hv : ∀ v ∈ vs, Has t ty v) (k : Nat)
    (hk : 0 < k) (rs : List (Prog DeErr Val × List Val)) (bs : List UInt8)
    (h : Shared t (fromBuffer t n (de t ty))
      (readers (fromBuffer t n (de t ty)) k, (vs.map fun v => (Ser.toVec v).1).flatten) (rs, bs))
    (hstop : ∀ r ∈ rs, ∃ e, r.1 = .done (.err e)) :
    ∃ who : List Nat, who.length = vs.length ∧ (∀ i ∈ who, i < k) ∧ rs.length = k ∧ bs = [] ∧
      ∀ (i : Nat) q got, rs[i]? = some (q, got) → got = dealt vs who i := by
  obtain ⟨who, h1, h2, h3, h4, h5⟩ := C139_buffer t hm ty hs n hn hpos vs hv k rs bs h
  have key : ∀ (i : Nat) q got, rs[i]? = some (q, got) →
      who.length = vs.length ∧ got = dealt vs who i := by
    intro i q got hi
    obtain ⟨e, he⟩ := hstop _ (List.mem_of_getElem? hi)
    dsimp only at he
    rcases h5 i q got hi with ⟨h6, _⟩ | ⟨v, h6, _⟩ | ⟨_, h6, h7⟩
    · rw [he] at h6; cases h6
    · rw [he] at h6; cases h6
    · exact ⟨h6, h7⟩
  have hfull : who.length = vs.length := by
    have hlt : 0 < rs.length := by omega
    exact (key 0 rs[0].1 rs[0].2 (by simp [hlt])).1
  refine ⟨who, hfull, h2, h4, ?_, fun i q got hi => (key i q got hi).2⟩
  rw [h3, List.drop_eq_nil_of_le (by omega)]
  rfl

/-- Without the buffer, values that take more than one call come out mixed, and nobody notices:
two readers of pairs of bytes can get the first bytes and the second bytes of two pairs. -/
theorem C139_mixed (t : Target) (a b c d : UInt8) :
    Shared t (de t (.tuple [.u8, .u8]))
      (readers (de t (.tuple [.u8, .u8])) 2,
        ([.tuple [.u8 a, .u8 b], .tuple [.u8 c, .u8 d]].map fun v => (Ser.toVec v).1).flatten)
      ([(de t (.tuple [.u8, .u8]), [.tuple [.u8 a, .u8 c]]),
        (de t (.tuple [.u8, .u8]), [.tuple [.u8 b, .u8 d]])], []) := by
  have hb : ([Val.tuple [.u8 a, .u8 b], .tuple [.u8 c, .u8 d]].map
      fun v => (Ser.toVec v).1).flatten = [a, b, c, d] := by
    rfl
  rw [hb]
  have h := Shared.step (Shared.step (Shared.step (Shared.step (Shared.step
    (Shared.step (p := de t (.tuple [.u8, .u8])) .start
    (.call (t := t) (rs := readers (de t (.tuple [.u8, .u8])) 2) (bs := [a, b, c, d]) (n := 1) 0 rfl
      (by simp)))
    (.call (bs := [b, c, d]) (n := 1) 1 rfl (by simp)))
    (.call (bs := [c, d]) (n := 1) 0 rfl (by simp)))
    (.call (bs := [d]) (n := 1) 1 rfl (by simp)))
    (.value (a := .tuple [.u8 a, .u8 c]) 0 rfl)) (.value (a := .tuple [.u8 b, .u8 d]) 1 rfl)
  exact h

/-- Nor are numbers safe: of 300 and 400, written as `u16`, two readers can make 4, 9260 and 6. -/
theorem C139_numbers (t : Target) :
    Shared t (de t .u16)
      (readers (de t .u16) 2, ([.u16 300, .u16 400].map fun v => (Ser.toVec v).1).flatten)
      ([(de t .u16, [.u16 9260]), (de t .u16, [.u16 4, .u16 6])], []) := by
  have hb : ([Val.u16 300, .u16 400].map fun v => (Ser.toVec v).1).flatten = [172, 4, 144, 6] := by
    decide +kernel
  rw [hb]
  have h := Shared.step (Shared.step (Shared.step (Shared.step (Shared.step (Shared.step
    (Shared.step (p := de t .u16) .start
    (.call (t := t) (rs := readers (de t .u16) 2) (bs := [172, 4, 144, 6]) (n := 1) 0 rfl (by simp)))
    (.call (bs := [4, 144, 6]) (n := 1) 1 rfl (by simp)))
    (.value 1 rfl))
    (.call (bs := [144, 6]) (n := 1) 0 rfl (by simp))) (.value 0 rfl))
    (.call (bs := [6]) (n := 1) 1 rfl (by simp))) (.value 1 rfl)
  have e1 : ((takeVec (n := 1) [172, 4, 144, 6] (by simp))[0].toUInt16 &&& (63 : UInt16) |||
    (takeVec (n := 1) [144, 6] (by simp))[0].toUInt16 <<< (6 : UInt16)) = 9260 := by decide +kernel
  have e2 : (takeVec (n := 1) [4, 144, 6] (by simp))[0].toUInt16 = 4 := by decide +kernel
  have e3 : (takeVec (n := 1) [6] (by simp))[0].toUInt16 = 6 := by decide +kernel
  rw [e1, e2, e3] at h
  exact h

-- three pairs of readings, of which two readers take two and one
example (t : Target) : FixedSize t (.tuple [.f64, .u8]) 9 ∧ Supported (.tuple [.f64, .u8]) := by
  simp [FixedSize, minSize, minSizeAll, maxSize, maxSizeAll, Supported, AllSupported, addBound]

example : dealt [1, 2, 3] [1, 0, 1] 1 = [1, 3] ∧ dealt [1, 2, 3] [1, 0, 1] 0 = [2] := by decide

example : oneCall (.newtypeStruct "Celsius" .f32) = some 4 := rfl

-- two readers that take turns come to the end
example (t : Target) : ∃ rs, Shared t (fromBuffer t 2 (de t (.tuple [.u8, .u8])))
    (readers (fromBuffer t 2 (de t (.tuple [.u8, .u8]))) 2,
      ([.tuple [.u8 1, .u8 2], .tuple [.u8 3, .u8 4]].map fun v => (Ser.toVec v).1).flatten)
    (rs, []) ∧ (∀ r ∈ rs, r.1 = .done (.err .read)) ∧
    rs.map (fun r => r.2) = [[.tuple [.u8 3, .u8 4]], [.tuple [.u8 1, .u8 2]]] := by
  refine ⟨_, .step (.step (.step (.step (.step (.step .start
    (.call (bs := [1, 2, 3, 4]) (n := 2) 1 rfl (by simp)))
    (.call (bs := [3, 4]) (n := 2) 0 rfl (by simp)))
    (.value 1 rfl)) (.value 0 rfl))
    (.short (bs := []) (n := 2) 0 rfl (by simp))) (.short (bs := []) (n := 2) 1 rfl (by simp)), ?_, ?_⟩
  · intro r hr
    simp [readers] at hr
    rcases hr with rfl | rfl <;> rfl
  · rfl

/-- A struct with the number of a sensor and what it measured: five bytes. -/
def readingTy : RTy := .struct "Reading" (.named [.mk [] "sensor" .u8, .mk [] "value" .f32])

theorem reading_meets (t : Target) (mode : BuildMode) (env : Derive.Env) (a : UInt8) (x : UInt32) :
    Readable readingTy ∧ Symmetric readingTy ∧ Defaulted env readingTy ∧
    Real t readingTy (a, x, ()) ∧ DatesRebase mode readingTy (a, x, ()) ∧
    InstantsInRange readingTy (a, x, ()) ∧
    (Derive.ser mode readingTy (a, x, ())).exec.1.length = 5 := by
  have h1 : ¬ Skipped [] := by decide
  have h2 : ¬ SkippedDe [] := by decide
  have h3 : ¬ Conditional [] := by decide
  have hp : typeParts readingTy = [readingTy, .u8, .f32] := by
    simp [readingTy, typeParts, typePartsFields, h1]
  have hvp : valueParts readingTy (a, x, ()) =
      [⟨readingTy, (a, x, ())⟩, ⟨.u8, a⟩, ⟨.f32, x⟩] := by
    simp [readingTy, valueParts, valuePartsFields, h1]
  refine ⟨?_, ?_, ?_, ?_, ?_, ?_, ?_⟩
  · intro U hU
    rw [hp] at hU
    simp only [List.mem_cons, List.not_mem_nil, or_false] at hU
    rcases hU with rfl | rfl | rfl <;> simp [readingTy, ReadablePart]
  · intro U hU
    rw [hp] at hU
    simp only [List.mem_cons, List.not_mem_nil, or_false] at hU
    rcases hU with rfl | rfl | rfl <;>
      simp [readingTy, SymmetricPart, SymmetricFields, fieldAttrs, h1, h2, h3]
  · intro U hU
    rw [hp] at hU
    simp only [List.mem_cons, List.not_mem_nil, or_false] at hU
    rcases hU with rfl | rfl | rfl <;>
      simp [readingTy, DefaultedPart, DefaultedFields, declared, fieldAttrs, h2]
  · intro p hpp
    rw [hvp] at hpp
    rcases hpp with _ | ⟨_, _ | ⟨_, _ | ⟨_, hpp⟩⟩⟩ <;> first | trivial | cases hpp
  · intro _ d hd
    rw [hvp] at hd
    rcases hd with _ | ⟨_, _ | ⟨_, _ | ⟨_, hd⟩⟩⟩
    cases hd
  · intro d hd
    rw [hvp] at hd
    rcases hd with _ | ⟨_, _ | ⟨_, _ | ⟨_, hd⟩⟩⟩
    cases hd
  · rfl

-- dynamic values of a fixed size
example (t : Target) (mode : BuildMode) (size : Nat) (hm : t.allocate (2 * size) = none)
    (a : UInt8) (x : UInt32) :
    Body.validate (.tuple [.uint8, .float32]) (.tuple [.uint8 a, .float32 x]) = true ∧
    Spec.Exists t (.tuple [.uint8 a, .float32 x]) ∧ CleanDecimals (.tuple [.uint8 a, .float32 x]) ∧
    DatesFit mode (.tuple [.uint8 a, .float32 x]) ∧
    VectorsFit t size (.tuple [.uint8 a, .float32 x]) ∧
    (Body.toVec mode (.tuple [.uint8 a, .float32 x])).1.length = 5 := by
  have hp : parts (.tuple [.uint8 a, .float32 x]) =
      [.tuple [.uint8 a, .float32 x], .uint8 a, .float32 x] := by
    simp [parts, partsAll]
  refine ⟨?_, ?_, ?_, ?_, ?_, rfl⟩
  · simp [Body.validate, Body.validateZip]
  · simp [Spec.Exists, hp, LengthsFit]
  · simp [CleanDecimals, hp]
  · simp [DatesFit, hp]
  · simp [VectorsFit, hp, hm]

end Dlhn.Props
