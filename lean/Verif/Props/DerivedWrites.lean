import Verif.Proof.BodyWritesMax
import Verif.Proof.DerivedWritesMax
import Verif.Props.Writers
import Verif.Props.Least
/-!
# C135 for types with derived implementations and for dynamic values that are serialized straight
to the stream
-/
namespace Dlhn.Props

open Spec hiding variantFields
open De Derive

variable {σ : Type} {step : RStep σ}

/-- A value takes no more calls of `write` than its type says. -/
theorem C135_calls_derived (mode : BuildMode) (T : RTy) (n : Nat)
    (hn : maxWritesDerived T = some n) (v : Derive.Carrier T) :
    (writes (Derive.ser mode T v)).length ≤ n :=
  calls_derived mode T n hn v

/-- The limit is reached, by a value that is written without an error. -/
theorem C135_reached_derived (mode : BuildMode) (T : RTy) (hw : Writable T) (n : Nat)
    (hn : maxWritesDerived T = some n) : ∃ v : Derive.Carrier T,
      (Derive.ser mode T v).exec.2 = .ok () ∧ (writes (Derive.ser mode T v)).length = n :=
  reached_ty mode T hw n hn

/-- Big numbers have no limit: a number of `k` digits (in base 256) takes `k + 1` calls. -/
theorem C135_digits (mode : BuildMode) (bs : List UInt8) :
    (writes (Derive.ser mode .bigUint ⟨bs⟩)).length = bs.length + 1 ∧
      (writes (Derive.ser mode .bigInt ⟨bs⟩)).length = bs.length + 1 := by
  have h := (makes_skip.andThen (makes_vecU8 bs)).2
  exact ⟨h.trans (by omega), h.trans (by omega)⟩

example : Writable (.struct "P" (.named [.mk [] "x" .f32, .mk [] "day" (.enum "When"
    [.mk [] "Never" .unit, .mk [] "On" (.unnamed [.mk [] "0" .date])])])) := by
  have hs : ¬ Skipped [] := by decide
  simp [Writable, FieldsWritable, VariantsWritable, variantAttrs, hs]

/-- A writer that serializes values of one type straight to the stream. -/
def writesOf (mode : BuildMode) (T : RTy) (vs : List (Derive.Carrier T)) : List (List UInt8) :=
  writes (writeValues mode (vs.map fun v => ⟨T, v⟩))

theorem writes_values (t : Target) (hm : 4096 ≤ t.memLimit) (mode : BuildMode) (env : Derive.Env)
    (ho : FairOrder env) (T : RTy) (h0 : 0 < leastRead T) (h1 : maxWritesDerived T = some 1) :
    (vs : List (Derive.Carrier T)) → (∀ v ∈ vs, ReadsBack t mode env ⟨T, v⟩) →
    writesOf mode T vs = vs.map fun v => (Derive.ser mode T v).exec.1
  | [], _ => rfl
  | v :: vs, hv => by
    obtain ⟨g1, g2, g3, g4, g5, g6⟩ := hv v List.mem_cons_self
    obtain ⟨w, bs, hs, -, hr⟩ := C71_roundtrip t hm mode env ho T g1 g2 g3 v g4 g5 g6
    have hne : (Derive.ser mode T v).exec.1 ≠ [] := by
      intro h
      rw [hs] at h
      have hl := C130_least t mode env T .eof bs [] w (by simpa using hr .eof [])
      have : bs = [] := h
      rw [this] at hl
      simp at hl
      omega
    have ih := writes_values t hm mode env ho T h0 h1 vs fun u hu => hv u (List.mem_cons_of_mem _ hu)
    rw [writesOf] at ih ⊢
    rw [List.map_cons, writeValues, writes_andThen (by rw [hs]),
      writes_single (calls_derived mode T 1 h1 v) hne, ih]
    rfl

/-- If the values of a type take one call, any number of writers may serialize them straight to
the stream, each at its own speed: the loop of the reader returns what comes back of whole values
(property C71), in some order that keeps every writer's own. -/
theorem C135_whole_derived (hl : step.Lawful) (t : Target) (hm : 4096 ≤ t.memLimit)
    (mode : BuildMode) (env : Derive.Env) (ho : FairOrder env) (T : RTy) (h0 : 0 < leastRead T)
    (h1 : maxWritesDerived T = some 1) (writers : List (List (Derive.Carrier T)))
    (hv : ∀ l ∈ writers, ∀ v ∈ l, ReadsBack t mode env ⟨T, v⟩) {calls : List (List UInt8)}
    {todo : List (List (List UInt8))}
    (hc : Interleaves (writers.map (writesOf mode T)) calls todo)
    (he : calls.flatten ≠ []) {s s' : σ} {cs : List ReadRes} {ws : List (Derive.Carrier T)}
    {e : DeErr} (hr : ReadsOut step t (Derive.deTy t mode env T) s cs ws e s')
    (hd : handed cs <+: calls.flatten) :
    e = .read ∧ ∃ order left vs torn, Interleaves writers order left ∧
      calls = (order.map fun v => (Derive.ser mode T v).exec.1) ∧
      todo = left.map (writesOf mode T) ∧
      Pointwise (Returned env T) vs ws ∧
      CompleteIn (fun v => (Derive.ser mode T v).exec.1) order (handed cs) vs torn := by
  rw [List.map_congr_left fun l hl => writes_values t hm mode env ho T h0 h1 l (hv l hl)] at hc
  obtain ⟨i1, order, left, vs, torn, i2, i3, i4, i5, i6⟩ :=
    C135_buffered_derived hl t hm mode env ho T writers hv hc he hr hd
  refine ⟨i1, order, left, vs, torn, i2, i3, ?_, i5, i6⟩
  rw [i4]
  refine List.map_congr_left fun l hl =>
    (writes_values t hm mode env ho T h0 h1 l fun v hx => ?_).symm
  obtain ⟨m, hm, hvm⟩ := i2.left_mem l hl v hx
  exact hv m hm v hvm

example : ¬ Skipped [] ∧ maxWritesDerived (.enum "Level" [.mk [] "Low" .unit, .mk [] "High" .unit])
      = some 1 ∧ maxWritesDerived (.struct "Id" (.unnamed [.mk [] "0" .u64])) = some 1 ∧
    maxWritesDerived (.struct "P" (.named [.mk [] "x" .f32, .mk [] "day" .date])) = some 3 ∧
    maxWritesDerived .bigUint = none := by
  refine ⟨by decide, by decide, by decide, by decide, rfl⟩

/-- Levels are read back. -/
theorem level_reads (t : Target) (mode : BuildMode) (env : Derive.Env)
    (v : Derive.Carrier (.enum "Level" [.mk [] "Low" .unit, .mk [] "High" .unit])) :
    ReadsBack t mode env ⟨.enum "Level" [.mk [] "Low" .unit, .mk [] "High" .unit], v⟩ := by
  have k1 : ¬ Skipped [] := by decide
  have d1 : ¬ SkippedDe [] := by decide
  have hp : valueParts (.enum "Level" [.mk [] "Low" .unit, .mk [] "High" .unit]) v =
      [⟨.enum "Level" [.mk [] "Low" .unit, .mk [] "High" .unit], v⟩] := by
    rcases v with v | v | v
    · rfl
    · rfl
    · exact v.elim
  refine ⟨?_, ?_, ?_, ?_, ?_, ?_⟩
  · intro U hU
    simp [typeParts, typePartsVariants] at hU
    subst hU; trivial
  · intro U hU
    simp [typeParts, typePartsVariants] at hU
    subst hU
    simp [SymmetricPart, SymmetricFields, Spec.variantFields, variantAttrs, declared, k1, d1]
  · intro U hU
    simp [typeParts, typePartsVariants] at hU
    subst hU
    simp [DefaultedPart, DefaultedFields, Spec.variantFields, declared]
  · intro p h
    rw [hp, List.mem_singleton] at h
    subst h
    trivial
  · intro _ d h
    rw [hp, List.mem_singleton] at h
    exact RTy.noConfusion (congrArg Sigma.fst h)
  · intro d h
    rw [hp, List.mem_singleton] at h
    exact RTy.noConfusion (congrArg Sigma.fst h)

/-- Two writers of levels, the first of which is ahead of the other. -/
example (t : Target) (mode : BuildMode) (env : Derive.Env) : ∃ T : RTy, ∃ low high : Derive.Carrier T,
    maxWritesDerived T = some 1 ∧ 0 < leastRead T ∧ ReadsBack t mode env ⟨T, low⟩ ∧
    ReadsBack t mode env ⟨T, high⟩ ∧
    ∃ calls todo, Interleaves ([[low, high, high], [high]].map (writesOf mode T)) calls todo ∧
      calls.flatten = [0, 1, 1] ∧ todo.length = 2 :=
  ⟨.enum "Level" [.mk [] "Low" .unit, .mk [] "High" .unit], .inl (), .inr (.inl ()),
    by decide, by decide, level_reads t mode env _, level_reads t mode env _, [[0], [1], [1]], _,
    .take 0 (by rfl) (.take 1 (by rfl) (.take 0 (by rfl) .stop)), rfl, rfl⟩

/-- Writers of dates do mix: dates come out that nobody wrote, without any error. -/
theorem C135_mixed_derived (t : Target) (mode : BuildMode) (env : Derive.Env) : ∃ calls,
    Interleaves ([[⟨2001, 1⟩], [⟨2002, 3⟩]].map (writesOf mode .date)) calls [[], []] ∧
    Prog.run t (Derive.deTy t mode env (.tuple [.date, .date])) calls.flatten =
      .ok ((⟨2001, 5⟩, ⟨2000, 3⟩, ()), []) := by
  refine ⟨[[2], [4], [0], [2]], ?_, ?_⟩
  · cases mode <;> exact .take 0 (by rfl) (.take 1 (by rfl) (.take 0 (by rfl)
      (.take 1 (by rfl) .stop)))
  · cases mode <;> rfl

/-! ## Dynamic values -/

/-- A dynamic value takes no more calls of `write` than its header says. -/
theorem C135_calls_body (mode : BuildMode) (h : Header) (n : Nat)
    (hn : maxWritesHeader h = some n) (b : Body) (hb : Body.validate h b = true) :
    (writes (Body.ser mode b)).length ≤ n :=
  calls_body mode h n hn b hb

/-- The limit is reached; where there is none, values take as many calls as there can be elements,
entries or digits. -/
theorem C135_reached_body (t : Target) (mode : BuildMode) (h : Header) (hp : PopulatedHeader h) :
    (∀ n, maxWritesHeader h = some n → ∃ b, Body.validate h b = true ∧ Spec.Exists t b ∧
      DatesFit mode b ∧ (writes (Body.ser mode b)).length = n) ∧
    (maxWritesHeader h = none → ∀ k, k < 2 ^ t.ptr.bits → ∃ b, Body.validate h b = true ∧
      Spec.Exists t b ∧ DatesFit mode b ∧ k ≤ (writes (Body.ser mode b)).length) := by
  have hr := reaches_body (t := t) (mode := mode) h hp
  refine ⟨fun n hn => ?_, fun hn k hk => ?_⟩
  · obtain ⟨b, hc, hf, -, hw⟩ := hr.top n hn
    exact ⟨b, (Body.validate_iff h b).mpr hc, hf.exist, hf.dates, hw⟩
  · obtain ⟨n, hkn, b, hc, hf, -, hw⟩ := hr.above hn k hk
    exact ⟨b, (Body.validate_iff h b).mpr hc, hf.exist, hf.dates, by omega⟩

example : maxWritesHeader (.enum [.unit, .unit]) = some 1 ∧
    maxWritesHeader (.tuple [.float32, .date]) = some 3 ∧
    maxWritesHeader (.array .unit) = some 1 ∧ maxWritesHeader (.array .boolean) = none ∧
    maxWritesHeader (.map .unit) = none := by decide +kernel

example : PopulatedHeader (.tuple [.float32, .enum [.unit, .date]]) ∧
    maxWritesHeader (.tuple [.float32, .enum [.unit, .date]]) = some 4 :=
  ⟨by simp [PopulatedHeader, headerParts, headersParts], by decide +kernel⟩

/-- If the values under a header take one call, any number of writers may serialize them straight
to the stream, each at its own speed: the loop of the reader returns whole values, in some order
that keeps every writer's own. -/
theorem C135_whole_body (hl : step.Lawful) (t : Target) (hm : 4096 ≤ t.memLimit)
    (mode : BuildMode) (size : Nat) (h : Header) (h0 : 0 < minBody h)
    (h1 : maxWritesHeader h = some 1) (writers : List (List Body))
    (hv : ∀ l ∈ writers, ∀ b ∈ l, Body.validate h b = true ∧ Spec.Exists t b ∧ CleanDecimals b ∧
      DatesFit mode b ∧ VectorsFit t size b) {calls : List (List UInt8)}
    {todo : List (List (List UInt8))}
    (hc : Interleaves (writers.map (·.flatMap fun b => writes (Body.ser mode b))) calls todo)
    (he : calls.flatten ≠ []) {s s' : σ} {cs : List ReadRes} {bs : List Body} {e : DeErr}
    (hr : ReadsOut step t (Body.de t mode size h) s cs bs e s') (hd : handed cs <+: calls.flatten) :
    e = .read ∧ ∃ order left torn, Interleaves writers order left ∧
      calls = (order.map fun b => (Body.toVec mode b).1) ∧
      todo = left.map (·.flatMap fun b => writes (Body.ser mode b)) ∧
      CompleteIn (fun b => (Body.toVec mode b).1) order (handed cs) bs torn := by
  have one : ∀ l : List Body, (∀ b ∈ l, ∃ m ∈ writers, b ∈ m) →
      (l.flatMap fun b => writes (Body.ser mode b)) = l.map fun b => (Body.toVec mode b).1 := by
    intro l hx
    induction l with
    | nil => rfl
    | cons b l ih =>
      obtain ⟨m, hmw, hbm⟩ := hx b List.mem_cons_self
      obtain ⟨g1, g2, g3, g4, g5⟩ := hv m hmw b hbm
      obtain ⟨enc, k1, k2⟩ := C35_roundtrip t hm mode size h b g1 g2 g3 g4 g5
      have hne : (Body.ser mode b).exec.1 ≠ [] := by
        intro hnil
        have hl := C103_body_consumes t mode size h .eof enc [] b (by simpa [Prog.run] using k2 [])
        have : (Body.ser mode b).exec = (enc, .ok ()) := k1
        rw [this] at hnil
        have : enc = [] := hnil
        subst this
        simp at hl
        omega
      rw [List.flatMap_cons, writes_single (calls_body mode h 1 h1 b g1) hne,
        ih fun u hu => hx u (List.mem_cons_of_mem _ hu)]
      rfl
  rw [List.map_congr_left fun l hl => one l fun b hb => ⟨l, hl, hb⟩] at hc
  obtain ⟨i1, order, left, torn, i2, i3, i4, i5⟩ :=
    C135_buffered_body hl t hm mode size h writers hv hc he hr hd
  refine ⟨i1, order, left, torn, i2, i3, ?_, i5⟩
  rw [i4]
  refine List.map_congr_left fun l hl => (one l fun b hb => ?_).symm
  obtain ⟨m, hm, hbm⟩ := i2.left_mem l hl b hb
  exact ⟨m, hm, hbm⟩

/-- Two writers of booleans, one of which is ahead of the other. -/
example (t : Target) (mode : BuildMode) : ∃ calls todo,
    Interleaves ([[.boolean true, .boolean false], [.boolean true]].map
      (·.flatMap fun b => writes (Body.ser mode b))) calls todo ∧
      calls.flatten = [1, 1] ∧ todo.length = 2 ∧ maxWritesHeader .boolean = some 1 ∧
      minBody .boolean = 1 ∧ ∀ x, Body.validate .boolean (.boolean x) = true ∧
        Spec.Exists t (.boolean x) ∧ CleanDecimals (.boolean x) ∧ DatesFit mode (.boolean x) ∧
        VectorsFit t 32 (.boolean x) := by
  refine ⟨[[1], [1]], _, .take 0 (by rfl) (.take 1 (by rfl) .stop), rfl, rfl, rfl, rfl, ?_⟩
  intro x
  refine ⟨rfl, ?_, ?_, ?_, ?_⟩
  · simp [Spec.Exists, LengthsFit, parts]
  · simp [CleanDecimals, parts]
  · simp [DatesFit, parts]
  · simp [VectorsFit, parts]

end Dlhn.Props
