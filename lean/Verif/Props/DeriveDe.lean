import Verif.Proof.DeriveDe
import Verif.Props.Derive
/-!
# C71-C73: reading values of Rust types back

`deTy t mode env T` is `T::deserialize` with dlhn's deserializer; `env` gives the
defaults of skipped fields and the iteration order of `HashMap`s. `Returned env T v
w` of `Spec/DeriveDe.lean` says which value should come back.
-/
namespace Dlhn.Props

open Spec hiding variantFields
open Derive

/-! ## C71 typed round trip -/

/-- Every value of a type whose fields are skipped symmetrically is written, and
reading gives the value back, from any reader and whatever follows, which is left
unread. -/
theorem C71_roundtrip (t : Target) (hm : 4096 ≤ t.memLimit) (mode : BuildMode) (env : Env)
    (ho : FairOrder env) (T : RTy) (hr : Readable T) (hs : Symmetric T) (hd : Defaulted env T)
    (v : Carrier T) (hv : Real t T v) (hdate : DatesRebase mode T v) (hi : InstantsInRange T v) :
    ∃ w bs, (ser mode T v).exec = (bs, .ok ()) ∧ Returned env T v w ∧
      ∀ fin rest, Prog.exec t fin (deTy t mode env T) (bs ++ rest) = .ok (w, rest) := by
  obtain ⟨w, bs, h1, h2⟩ := reads t mode env ho hm T
    (fun U hU => ⟨hr U hU, hs U hU, hd U hU⟩) v
    (fun p hp => ⟨hv p hp, fun e d he => hdate e d (he ▸ hp), fun d he => hi d (he ▸ hp)⟩)
  exact ⟨w, bs, h2.bytes, h1, h2.decodes⟩

/-- Without skipped fields, decimals, `OffsetDateTime`s and `HashMap`s it is the same
value. -/
theorem C71_exact (t : Target) (hm : 4096 ≤ t.memLimit) (mode : BuildMode) (env : Env)
    (ho : FairOrder env) (T : RTy) (hr : Readable T) (hs : Symmetric T) (hd : Defaulted env T)
    (hl : Lossless T) (v : Carrier T) (hv : Real t T v) (hdate : DatesRebase mode T v) :
    ∃ bs, (ser mode T v).exec = (bs, .ok ()) ∧
      ∀ fin rest, Prog.exec t fin (deTy t mode env T) (bs ++ rest) = .ok (v, rest) := by
  have hi : InstantsInRange T v := by
    intro d hp
    exact (hl _ (part_type T v _ hp)).elim
  obtain ⟨w, bs, h1, h2, h3⟩ := C71_roundtrip t hm mode env ho T hr hs hd v hv hdate hi
  have := returned_eq env T (fun U hU => ⟨hl U hU, hs U hU⟩) v w h2
  subst this
  exact ⟨bs, h1, h3⟩

/-- Types with a borrowed string or byte slice are not read but panic, whatever the
input. -/
theorem C71_borrowed (t : Target) (mode : BuildMode) (env : Env) (fin : Ending)
    (bs : List UInt8) : Prog.exec t fin (deTy t mode env .str) bs = .panic .todo ∧
      Prog.exec t fin (deTy t mode env .bytes) bs = .panic .todo := by
  rw [deTy, deTy]
  exact ⟨rfl, rfl⟩

/-- `char::default()` for the skipped field of the sample record. -/
def sampleEnv : Env where
  dflt := fun _ T => match T with
    | .foreign => some (.char '\x00')
    | .u8 => some 0
    | _ => none
  order := fun es => es.reverse

theorem sample_fair : FairOrder sampleEnv := fun es => List.reverse_perm es

/-- The sample record meets the hypotheses of `C71_roundtrip`. -/
theorem record_reads (t : Target) (h3 : t.allocate 3 = none) (mode : BuildMode) :
    Readable recordTy ∧ Symmetric recordTy ∧ Defaulted sampleEnv recordTy ∧
      Real t recordTy recordVal ∧ DatesRebase mode recordTy recordVal ∧
      InstantsInRange recordTy recordVal := by
  obtain ⟨-, h1, h2, -⟩ := record_meets t mode 1 h3
  have k1 : ¬ Skipped [] := by decide
  have k2 : Skipped [skipAttr] := by decide
  have k3 : ¬ Skipped [docAttr] := by decide
  have d1 : ¬ SkippedDe [] := by decide
  have d2 : SkippedDe [skipAttr] := by decide
  have d3 : ¬ SkippedDe [docAttr] := by decide
  have c1 : ¬ Conditional [] := by decide
  have c2 : ¬ Conditional [skipAttr] := by decide
  have c3 : ¬ Conditional [docAttr] := by decide
  refine ⟨?_, ?_, ?_, h1, h2, ?_⟩
  · intro U hU
    simp [recordTy, shapeTy, typeParts, typePartsFields, typePartsVariants, k1, k2, k3] at hU
    rcases hU with rfl | rfl | rfl | rfl | rfl | rfl | rfl | rfl | rfl | rfl <;> trivial
  · intro U hU
    simp [recordTy, shapeTy, typeParts, typePartsFields, typePartsVariants, k1, k2, k3] at hU
    rcases hU with rfl | rfl | rfl | rfl | rfl | rfl | rfl | rfl | rfl | rfl <;>
      simp [SymmetricPart, SymmetricFields, Spec.variantFields, variantAttrs, fieldAttrs, declared,
        k1, k2, k3, d1, d2, d3, c1, c2, c3]
  · intro U hU
    simp [recordTy, shapeTy, typeParts, typePartsFields, typePartsVariants, k1, k2, k3] at hU
    rcases hU with rfl | rfl | rfl | rfl | rfl | rfl | rfl | rfl | rfl | rfl <;>
      simp [DefaultedPart, DefaultedFields, Spec.variantFields, fieldAttrs, fieldType, declared,
        d1, d2, d3, sampleEnv]
  · intro d hd
    rw [record_parts] at hd
    simp only [List.mem_cons, List.not_mem_nil, or_false] at hd
    rcases hd with h | h | h | h | h | h | h | h | h | h | h | h | h <;>
      exact RTy.noConfusion (congrArg Sigma.fst h)

/-- So it is read back. -/
example (t : Target) (hm : 4096 ≤ t.memLimit) (h3 : t.allocate 3 = none) (mode : BuildMode) :
    ∃ w bs, (ser mode recordTy recordVal).exec = (bs, .ok ()) ∧
      Returned sampleEnv recordTy recordVal w ∧
      ∀ fin rest, Prog.exec t fin (deTy t mode sampleEnv recordTy) (bs ++ rest) = .ok (w, rest) := by
  obtain ⟨h1, h2, h3, h4, h5, h6⟩ := record_reads t h3 mode
  exact C71_roundtrip t hm mode sampleEnv sample_fair _ h1 h2 h3 _ h4 h5 h6

/-- It comes back with the default in the skipped field. -/
example (w : Carrier recordTy) (h : Returned sampleEnv recordTy recordVal w) :
    w = (70000, .char '\x00', recordVal.2.2) := by
  have d1 : ¬ SkippedDe [] := by decide
  have d2 : SkippedDe [skipAttr] := by decide
  have d3 : ¬ SkippedDe [docAttr] := by decide
  obtain ⟨w1, w2, w3, w4, ⟨⟩⟩ := w
  simp only [recordTy, recordVal, Returned, FieldsReturned, d1, d2, d3, if_true, if_false] at h
  obtain ⟨rfl, h2, h3, h4, -⟩ := h
  simp only [sampleEnv, Option.some.injEq] at h2
  subst h2
  have e3 := returned_eq sampleEnv (.vec shapeTy) (by
    intro U hU
    have k1 : ¬ Skipped [] := by decide
    have k3 : ¬ Skipped [docAttr] := by decide
    have c1 : ¬ Conditional [] := by decide
    simp [shapeTy, typeParts, typePartsFields, typePartsVariants, k1] at hU
    rcases hU with rfl | rfl | rfl | rfl | rfl <;>
      simp [LosslessPart, SymmetricPart, SymmetricFields, Spec.variantFields, variantAttrs,
        fieldAttrs, declared, k1, k3, d1, d3, c1]) _ w3 (by rw [Returned]; exact h3)
  have e4 := returned_eq sampleEnv (.btreeMap (.option .i16)) (by
    intro U hU
    simp [typeParts] at hU
    rcases hU with rfl | rfl | rfl <;> simp [LosslessPart, SymmetricPart]) _ w4
    (by rw [Returned]; exact h4)
  rw [e3, e4]
  rfl

/-! ## C72 fields skipped in one direction -/

/-- `#[serde(skip_serializing)]` -/
def skipSerAttr : Attr := ⟨some "serde", some [some "skip_serializing"]⟩
/-- `#[serde(skip_deserializing)]` -/
def skipDeAttr : Attr := ⟨some "serde", some [some "skip_deserializing"]⟩

/-- A struct whose last field is left out only when serializing: reading takes that
field from whatever follows the value, and fails as reading the field fails. The
other fields are those written. -/
theorem C72_swallows (t : Target) (hm : 4096 ≤ t.memLimit) (mode : BuildMode) (env : Env)
    (ho : FairOrder env) (name fname : String) (fs : List RField) (attrs : List Attr) (T : RTy)
    (hs : Skipped attrs) (hnd : ¬ SkippedDe attrs) (hy : SymmetricFields fs)
    (hdf : DefaultedFields env fs)
    (hfs : ∀ U ∈ typePartsFields fs, ReadablePart U ∧ SymmetricPart U ∧ DefaultedPart env U)
    (v : Carrier (.struct name (.named (fs ++ [.mk attrs fname T]))))
    (hv : Real t _ v) (hdate : DatesRebase mode _ v) (hi : InstantsInRange _ v) :
    ∃ bs, (ser mode (.struct name (.named (fs ++ [.mk attrs fname T]))) v).exec = (bs, .ok ()) ∧
      ∀ fin next,
        (∀ u rest, Prog.exec t fin (deTy t mode env T) next = .ok (u, rest) →
          ∃ w, Prog.exec t fin (deTy t mode env (.struct name (.named (fs ++ [.mk attrs fname T]))))
            (bs ++ next) = .ok (w, rest) ∧ lastField fs w = u ∧
            FieldsReturned env fs (initFields fs v) (initFields fs w)) ∧
        (∀ e, Prog.exec t fin (deTy t mode env T) next = .err e →
          Prog.exec t fin (deTy t mode env (.struct name (.named (fs ++ [.mk attrs fname T]))))
            (bs ++ next) = .err e) ∧
        (∀ p, Prog.exec t fin (deTy t mode env T) next = .panic p →
          Prog.exec t fin (deTy t mode env (.struct name (.named (fs ++ [.mk attrs fname T]))))
            (bs ++ next) = .panic p) := by
  have hmem : ∀ p, p ∈ valuePartsFields (fs ++ [.mk attrs fname T]) v →
      p ∈ valueParts (.struct name (.named (fs ++ [.mk attrs fname T]))) v := by
    intro p hp
    rw [valueParts]
    exact List.mem_cons_of_mem _ hp
  obtain ⟨bs, h1, h2⟩ := missing_last t mode env ho hm attrs fname T hs hnd fs hy hdf hfs v
    (fun p hp => ⟨hv p (hmem p hp), fun e d he => hdate e d (he ▸ hmem p hp),
      fun d he => hi d (he ▸ hmem p hp)⟩)
  refine ⟨bs, by rw [ser]; exact h1, fun fin next => ?_⟩
  obtain ⟨f, hfa, hf⟩ := h2 fin next
  rw [deTy, hf]
  exact ⟨fun u rest hu => ⟨f u, by rw [hu]; rfl, hfa u⟩, fun e he => by rw [he]; rfl,
    fun p hp => by rw [hp]; rfl⟩

/-- A struct whose last field is left out only when deserializing: reading succeeds
but leaves the bytes of that field in the stream, and the field gets its default. -/
theorem C72_leaves (t : Target) (hm : 4096 ≤ t.memLimit) (mode : BuildMode) (env : Env)
    (ho : FairOrder env) (name fname : String) (fs : List RField) (attrs : List Attr) (T : RTy)
    (hns : ¬ Skipped attrs) (hd : SkippedDe attrs) (hy : SymmetricFields fs)
    (hdf : DefaultedFields env (fs ++ [.mk attrs fname T]))
    (hfs : ∀ U ∈ typePartsFields (fs ++ [.mk attrs fname T]),
      ReadablePart U ∧ SymmetricPart U ∧ DefaultedPart env U)
    (v : Carrier (.struct name (.named (fs ++ [.mk attrs fname T]))))
    (hv : Real t _ v) (hdate : DatesRebase mode _ v) (hi : InstantsInRange _ v) :
    ∃ bs last,
      (ser mode (.struct name (.named (fs ++ [.mk attrs fname T]))) v).exec = (bs ++ last, .ok ()) ∧
      (ser mode T (lastField fs v)).exec = (last, .ok ()) ∧
      ∀ fin rest, ∃ w,
        Prog.exec t fin (deTy t mode env (.struct name (.named (fs ++ [.mk attrs fname T]))))
          (bs ++ last ++ rest) = .ok (w, last ++ rest) ∧
        env.dflt attrs T = some (lastField fs w) ∧
        FieldsReturned env fs (initFields fs v) (initFields fs w) := by
  have hmem : ∀ p, p ∈ valuePartsFields (fs ++ [.mk attrs fname T]) v →
      p ∈ valueParts (.struct name (.named (fs ++ [.mk attrs fname T]))) v := by
    intro p hp
    rw [valueParts]
    exact List.mem_cons_of_mem _ hp
  have hex : ∃ d, env.dflt attrs T = some d := hdf (.mk attrs fname T) (by simp) hd
  obtain ⟨d, hdd⟩ := hex
  obtain ⟨bs, last, h1, h2, h3⟩ := unread_last t mode env ho hm attrs fname T hns hd d hdd fs hy
    (fun f hf => hdf f (by simp [hf])) hfs v
    (fun p hp => ⟨hv p (hmem p hp), fun e d he => hdate e d (he ▸ hmem p hp),
      fun d he => hi d (he ▸ hmem p hp)⟩)
  refine ⟨bs, last, by rw [ser]; exact h1, h2, fun fin rest => ?_⟩
  obtain ⟨w, hl, hi, hw⟩ := h3 fin rest
  refine ⟨w, ?_, by rw [hl]; exact hdd, hi⟩
  rw [deTy, List.append_assoc]
  exact hw

/-- The attributes concerned. -/
example : Skipped [skipSerAttr] ∧ ¬ SkippedDe [skipSerAttr] ∧ ¬ Skipped [skipDeAttr] ∧
    SkippedDe [skipDeAttr] := by decide

/-- `struct P { a: u16, #[serde(skip_serializing)] b: u8 }` -/
def oneSidedTy : RTy := .struct "P" (.named ([.mk [] "a" .u16] ++ [.mk [skipSerAttr] "b" .u8]))
/-- `struct Q { a: u16, #[serde(skip_deserializing)] b: u8 }` -/
def otherSidedTy : RTy := .struct "Q" (.named ([.mk [] "a" .u16] ++ [.mk [skipDeAttr] "b" .u8]))

/-- `P { a: 5, b: 7 }` meets the hypotheses. -/
theorem oneSided_meets (t : Target) (mode : BuildMode) :
    SymmetricFields [.mk [] "a" .u16] ∧ DefaultedFields sampleEnv [.mk [] "a" .u16] ∧
    (∀ U ∈ typePartsFields [.mk [] "a" .u16],
      ReadablePart U ∧ SymmetricPart U ∧ DefaultedPart sampleEnv U) ∧
    Real t oneSidedTy (5, 7, ()) ∧ DatesRebase mode oneSidedTy (5, 7, ()) ∧
    InstantsInRange oneSidedTy (5, 7, ()) := by
  have k1 : ¬ Skipped [] := by decide
  have k2 : Skipped [skipSerAttr] := by decide
  have d1 : ¬ SkippedDe [] := by decide
  have c1 : ¬ Conditional [] := by decide
  have hp : ∀ p, p ∈ valueParts oneSidedTy (5, 7, ()) →
      p = ⟨oneSidedTy, (5, 7, ())⟩ ∨ p = ⟨.u16, (5 : UInt16)⟩ := by
    intro p hp
    simpa [oneSidedTy, valueParts, valuePartsFields, k1, k2] using hp
  refine ⟨by simp [SymmetricFields, fieldAttrs, k1, d1, c1],
    by simp [DefaultedFields, fieldAttrs, d1],
    by simp [typePartsFields, k1, typeParts, ReadablePart, SymmetricPart, DefaultedPart], ?_, ?_, ?_⟩
  · intro p h
    rcases hp p h with rfl | rfl <;> trivial
  · intro _ d h
    rcases hp _ h with h | h <;> exact RTy.noConfusion (congrArg Sigma.fst h)
  · intro d h
    rcases hp _ h with h | h <;> exact RTy.noConfusion (congrArg Sigma.fst h)

/-- Two values of `P` in a row: the first byte of the second is taken for the `b` of
the first. -/
theorem C72_witness (t : Target) (hm : 4096 ≤ t.memLimit) (mode : BuildMode) :
    ∃ bs, (ser mode oneSidedTy (5, 7, ())).exec = (bs, .ok ()) ∧
      Prog.run t (deTy t mode sampleEnv oneSidedTy) bs = .err .read ∧
      Prog.run t (deTy t mode sampleEnv oneSidedTy) (bs ++ bs) = .ok ((5, 5, ()), []) := by
  obtain ⟨h1, h2, h3, h4, h5, h6⟩ := oneSided_meets t mode
  obtain ⟨bs, hb, hr⟩ := C72_swallows t hm mode sampleEnv sample_fair "P" "b" [.mk [] "a" .u16]
    [skipSerAttr] .u8 (by decide) (by decide) h1 h2 h3 (5, 7, ()) h4 h5 h6
  have hx : (ser mode oneSidedTy (5, 7, ())).exec = ([5], .ok ()) := by
    have e1 : serdeSkips [] = false := by decide
    have e2 : serdeSkips [skipSerAttr] = true := by decide
    simp only [oneSidedTy, List.cons_append, List.nil_append, ser, serFields, e1, e2]
    decide +kernel
  have hbs : bs = [5] := (Prod.mk.inj (hb.symm.trans hx)).1
  subst hbs
  refine ⟨_, hx, ?_, ?_⟩
  · have := (hr .eof []).2.1 .read (by rw [deTy]; rfl)
    rwa [List.append_nil] at this
  · obtain ⟨⟨a, b, ⟨⟩⟩, h, hb, ha⟩ := (hr .eof [5]).1 5 [] (by rw [deTy]; exact De.deU8_wire t .eof 5 [])
    have ha : a = 5 := by
      simpa [initFields, FieldsReturned, show ¬ SkippedDe [] by decide, Returned] using ha
    have hb : b = 5 := hb
    subst ha hb
    exact h

/-- `Q { a: 5, b: 7 }`: the byte of `b` is left behind. -/
example (t : Target) (hm : 4096 ≤ t.memLimit) (mode : BuildMode) :
    ∃ bs last, (ser mode otherSidedTy (5, 7, ())).exec = (bs ++ last, .ok ()) ∧
      (ser mode .u8 (7 : UInt8)).exec = (last, .ok ()) ∧
      ∀ fin rest, ∃ w, Prog.exec t fin (deTy t mode sampleEnv otherSidedTy) (bs ++ last ++ rest) =
          .ok (w, last ++ rest) ∧
        sampleEnv.dflt [skipDeAttr] .u8 = some (lastField [.mk [] "a" .u16] w) ∧
        FieldsReturned sampleEnv [.mk [] "a" .u16] (5, ()) (initFields [.mk [] "a" .u16] w) := by
  have k1 : ¬ Skipped [] := by decide
  have k2 : ¬ Skipped [skipDeAttr] := by decide
  have d1 : ¬ SkippedDe [] := by decide
  have d2 : SkippedDe [skipDeAttr] := by decide
  have c1 : ¬ Conditional [] := by decide
  have hp : ∀ p, p ∈ valueParts otherSidedTy (5, 7, ()) →
      p = ⟨otherSidedTy, (5, 7, ())⟩ ∨ p = ⟨.u16, (5 : UInt16)⟩ ∨ p = ⟨.u8, (7 : UInt8)⟩ := by
    intro p hp
    simpa [otherSidedTy, valueParts, valuePartsFields, k1, k2] using hp
  refine C72_leaves t hm mode sampleEnv sample_fair "Q" "b" [.mk [] "a" .u16] [skipDeAttr] .u8
    k2 d2 (by simp [SymmetricFields, fieldAttrs, k1, d1, c1])
    (by simp [DefaultedFields, fieldAttrs, fieldType, d1, sampleEnv])
    (by simp [typePartsFields, k1, k2, typeParts, ReadablePart, SymmetricPart, DefaultedPart])
    (5, 7, ()) ?_ ?_ ?_
  · intro p h
    rcases hp p h with rfl | rfl | rfl <;> trivial
  · intro _ d h
    rcases hp _ h with h | h | h <;> exact RTy.noConfusion (congrArg Sigma.fst h)
  · intro d h
    rcases hp _ h with h | h | h <;> exact RTy.noConfusion (congrArg Sigma.fst h)

/-! ## C73 skipped variants -/

/-- The variant that comes back has as many readable variants before it as the
written one has variants before it. -/
theorem C73_position (t : Target) (mode : BuildMode) (env : Env) (name : String)
    (vs : List RVariant) (hn : vs.length ≤ 16384) (v w : Carrier (.enum name vs))
    (bs next rest : List UInt8) (fin : Ending)
    (hx : (ser mode (.enum name vs) v).exec = (bs, .ok ()))
    (hr : Prog.exec t fin (deTy t mode env (.enum name vs)) (bs ++ next) = .ok (w, rest)) :
    readCount (vs.take (variantPosition vs w)) = variantPosition vs v ∧
      ∃ u, vs[variantPosition vs w]? = some u ∧ ¬ SkippedDe (variantAttrs u) := by
  rw [ser] at hx
  have hlt := position_lt vs v
  obtain ⟨-, payload, hp⟩ := exec_serVariant mode name vs v 0 bs (by omega) hx
  rw [Nat.zero_add] at hp
  rw [hp, deTy, Prog.bind_eq, Prog.exec_bind, List.append_assoc, De.varint_32_16 _ (by omega),
    De.deU16, De.exec_u16_varint _ _ _ (by omega), Prog.next_ok, UInt16.toNat_ofNat',
    Nat.mod_eq_of_lt (by omega)] at hr
  exact deVariant_position t mode env fin vs _ _ w rest hr

/-- If a variant before the written one cannot be deserialized, a later variant
comes back, never the one written. -/
theorem C73_shift (t : Target) (mode : BuildMode) (env : Env) (name : String)
    (vs : List RVariant) (hn : vs.length ≤ 16384) (v w : Carrier (.enum name vs))
    (bs next rest : List UInt8) (fin : Ending)
    (hx : (ser mode (.enum name vs) v).exec = (bs, .ok ()))
    (hs : ∃ u ∈ vs.take (variantPosition vs v), SkippedDe (variantAttrs u))
    (hr : Prog.exec t fin (deTy t mode env (.enum name vs)) (bs ++ next) = .ok (w, rest)) :
    variantPosition vs v < variantPosition vs w := by
  obtain ⟨h1, -⟩ := C73_position t mode env name vs hn v w bs next rest fin hx hr
  apply Decidable.byContradiction
  intro hle
  have hle : variantPosition vs w ≤ variantPosition vs v := Nat.not_lt.mp hle
  have h2 := readCount_le (vs.take (variantPosition vs w))
  rw [List.length_take] at h2
  have he : variantPosition vs w = variantPosition vs v := by omega
  rw [he] at h1
  have hlt := readCount_lt hs
  rw [List.length_take] at hlt
  omega

/-- If too few readable variants are left, reading always fails. -/
theorem C73_fails (t : Target) (mode : BuildMode) (env : Env) (name : String)
    (vs : List RVariant) (hn : vs.length ≤ 16384) (v : Carrier (.enum name vs))
    (bs : List UInt8) (hx : (ser mode (.enum name vs) v).exec = (bs, .ok ()))
    (hs : readCount vs ≤ variantPosition vs v) (fin : Ending) (next : List UInt8) :
    Prog.exec t fin (deTy t mode env (.enum name vs)) (bs ++ next)
      = .err (unknownVariant (variantPosition vs v) (readCount vs)) := by
  rw [ser] at hx
  have hlt := position_lt vs v
  obtain ⟨-, payload, hp⟩ := exec_serVariant mode name vs v 0 bs (by omega) hx
  rw [Nat.zero_add] at hp
  rw [hp, deTy, Prog.bind_eq, Prog.exec_bind, List.append_assoc, De.varint_32_16 _ (by omega),
    De.deU16, De.exec_u16_varint _ _ _ (by omega), Prog.next_ok, UInt16.toNat_ofNat',
    Nat.mod_eq_of_lt (by omega)]
  rw [deVariant_beyond t mode env fin vs _ _ hs,
    show ∀ a b : Nat, b ≤ a → a - (a - b) = b by omega]
  exact hs

/-- `enum E { #[serde(skip)] A, B(u8), C(u16) }`: `B(5)` comes back as `C(5)`. -/
theorem C73_witness (t : Target) (mode : BuildMode) (env : Env) :
    ∃ bs, (ser mode skippedTy (.inr (.inl (5, ())))).exec = (bs, .ok ()) ∧
      Prog.run t (deTy t mode env skippedTy) bs = .ok (.inr (.inr (.inl (5, ()))), []) := by
  have h1 : serdeSkips [] = false := by decide
  have hx : (ser mode skippedTy (.inr (.inl (5, ())))).exec = ([1, 5], .ok ()) := by
    simp only [skippedTy, ser, serVariant, serFields, h1]
    decide +kernel
  refine ⟨_, hx, ?_⟩
  have v1 : varint 16 1 = [1] := by decide +kernel
  have v5 : varint 16 5 = [5] := by decide +kernel
  have hi := De.exec_u16_varint t .eof 1 (by decide) [5]
  have h5 := De.exec_u16_varint t .eof 5 (by decide) []
  rw [v1] at hi
  rw [v5] at h5
  have d0 : ¬ SkippedDe [] := by decide
  have d1 : SkippedDe [skipAttr] := by decide
  have e0 : ¬ deSkips [] = true := by decide
  have hfields : Prog.exec t .eof (deFields t mode env [.mk [] "0" .u16]) [5] =
      .ok ((5, ()), []) := by
    rw [deFields, if_neg e0, deTy, deFields, Prog.bind_eq, Prog.exec_bind, De.deU16]
    rw [show ([5] : List UInt8) = [5] ++ [] from rfl, h5]
    rfl
  show Prog.exec t .eof (deTy t mode env (.enum "E" [.mk [skipAttr] "A" .unit,
    .mk [] "B" (.unnamed [.mk [] "0" .u8]), .mk [] "C" (.unnamed [.mk [] "0" .u16])])) [1, 5] = _
  rw [deTy, Prog.bind_eq, Prog.exec_bind, De.deU16,
    show ([1, 5] : List UInt8) = [1] ++ [5] from rfl, hi, Prog.next_ok,
    show (UInt16.ofNat 1).toNat = 0 + 1 from rfl, deVariant_skip _ _ _ _ d1,
    deVariant_succ _ _ _ _ d0, deVariant_zero _ _ _ d0, dePayload]
  exact De.exec_wrap t .eof _ Sum.inr _ _ _ (De.exec_wrap t .eof _ Sum.inr _ _ _
    (De.exec_wrap t .eof _ Sum.inl _ _ _ hfields))

/-- The hypotheses of `C73_shift` hold of that value. -/
example : ∃ u ∈ [RVariant.mk [skipAttr] "A" .unit, .mk [] "B" (.unnamed [.mk [] "0" .u8]),
      .mk [] "C" (.unnamed [.mk [] "0" .u16])].take
        (variantPosition [RVariant.mk [skipAttr] "A" .unit, .mk [] "B" (.unnamed [.mk [] "0" .u8]),
          .mk [] "C" (.unnamed [.mk [] "0" .u16])] (.inr (.inl (5, ())))),
    SkippedDe (variantAttrs u) :=
  ⟨_, List.mem_cons_self, by decide⟩

/-- `C(5)` of that enum cannot be read: there is no variant 2 for the reader. -/
example (t : Target) (mode : BuildMode) (env : Env) (fin : Ending) (next bs : List UInt8)
    (hx : (ser mode skippedTy (.inr (.inr (.inl (5, ()))))).exec = (bs, .ok ())) :
    Prog.exec t fin (deTy t mode env skippedTy) (bs ++ next) =
      .err (.message "invalid value: integer `2`, expected variant index 0 <= i < 2") :=
  C73_fails t mode env _ _ (by decide) _ bs hx (by decide) fin next

end Dlhn.Props
