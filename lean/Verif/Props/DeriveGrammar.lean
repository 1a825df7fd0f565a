import Verif.Proof.DeriveGrammar
import Verif.Props.DeriveIo
/-!
# C123, C124: exactly which bytes are read as which value of a Rust type

`Spec.TypeDenotes` (Spec/DeriveGrammar.lean) is the grammar. On 64-bit targets.
-/
namespace Dlhn.Props

open Spec hiding variantFields
open Derive

/-! ## C123 the bytes of a value -/

/-- `T::deserialize` yields a value and leaves a rest exactly if what it took stands for the
value. -/
theorem C123_accepts (t : Target) (ht : t.ptr = .w64) (hm : 4096 ≤ t.memLimit) (mode : BuildMode)
    (env : Env) (T : RTy) (bs rest : List UInt8) (v : Carrier T) :
    Prog.run t (deTy t mode env T) bs = .ok (v, rest) ↔
      ∃ used, bs = used ++ rest ∧ TypeDenotes mode env T v used :=
  parses_ty ht hm mode env T .eof bs v rest

/-- Without borrowed data, `OffsetDateTime`s and dates (or without overflow checks) everything
else is an error. -/
theorem C123_rejects (t : Target) (ht : t.ptr = .w64) (hm : 4096 ≤ t.memLimit) (mode : BuildMode)
    (env : Env) (T : RTy) (hb : .str ∉ readParts T ∧ .bytes ∉ readParts T)
    (hd : mode = .debug → .date ∉ readParts T ∧ .timeDate ∉ readParts T)
    (hi : .offsetDateTime ∉ readParts T) (bs : List UInt8) :
    (∃ e, Prog.run t (deTy t mode env T) bs = .err e) ↔
      ∀ used rest v, bs = used ++ rest → ¬ TypeDenotes mode env T v used := by
  constructor
  · rintro ⟨e, he⟩ used rest v rfl hv
    rw [(C123_accepts t ht hm mode env T _ rest v).mpr ⟨used, rfl, hv⟩] at he
    cases he
  · intro hn
    cases hy : Prog.run t (deTy t mode env T) bs with
    | ok r =>
      obtain ⟨used, hu, hv⟩ := (C123_accepts t ht hm mode env T bs r.2 r.1).mp hy
      exact (hn used r.2 r.1 hu hv).elim
    | err e => exact ⟨e, rfl⟩
    | panic p =>
      rcases C75_panics t hm mode env T .eof bs p hy with ⟨-, h | h⟩ | ⟨-, h1, h | h⟩ | ⟨-, h⟩
      · exact (hb.1 h).elim
      · exact (hb.2 h).elim
      · exact ((hd h1).1 h).elim
      · exact ((hd h1).2 h).elim
      · exact (hi h).elim

/-- Whatever the type: what is not in the grammar is an error, or a panic for borrowed data
(`todo!()`), for a date whose year overflows with overflow checks or for an `OffsetDateTime` out
of range. -/
theorem C123_else (t : Target) (ht : t.ptr = .w64) (hm : 4096 ≤ t.memLimit) (mode : BuildMode)
    (env : Env) (T : RTy) (bs : List UInt8)
    (hn : ∀ used rest v, bs = used ++ rest → ¬ TypeDenotes mode env T v used) :
    (∃ e, Prog.run t (deTy t mode env T) bs = .err e) ∨
    (∃ q, Prog.run t (deTy t mode env T) bs = .panic q ∧
      ((q = .todo ∧ (.str ∈ readParts T ∨ .bytes ∈ readParts T)) ∨
       (q = .overflow ∧ mode = .debug ∧ (.date ∈ readParts T ∨ .timeDate ∈ readParts T)) ∨
       (q = .timeRange ∧ .offsetDateTime ∈ readParts T))) := by
  cases hy : Prog.run t (deTy t mode env T) bs with
  | ok r =>
    obtain ⟨used, hu, hv⟩ := (C123_accepts t ht hm mode env T bs r.2 r.1).mp hy
    exact (hn used r.2 r.1 hu hv).elim
  | err e => exact .inl ⟨e, rfl⟩
  | panic p => exact .inr ⟨p, rfl, C75_panics t hm mode env T .eof bs p hy⟩

/-- What is written is in the grammar, for the value it is read back as. -/
theorem C123_written (t : Target) (ht : t.ptr = .w64) (hm : 4096 ≤ t.memLimit) (mode : BuildMode)
    (env : Env) (ho : FairOrder env) (T : RTy) (hr : Readable T) (hs : Symmetric T)
    (hd : Defaulted env T) (v : Carrier T) (hv : Real t T v) (hdate : DatesRebase mode T v)
    (hi : InstantsInRange T v) :
    ∃ w enc, (ser mode T v).exec = (enc, .ok ()) ∧ Returned env T v w ∧
      TypeDenotes mode env T w enc := by
  obtain ⟨w, enc, h1, h2, h3⟩ := C71_roundtrip t hm mode env ho T hr hs hd v hv hdate hi
  obtain ⟨used, hu, hb⟩ := (C123_accepts t ht hm mode env T _ _ w).mp (h3 .eof [])
  simp only [List.append_nil] at hu
  exact ⟨w, enc, h1, h2, hu ▸ hb⟩

/-- At most one beginning of a byte string stands for a value, and it stands for one. -/
theorem C123_unambiguous (t : Target) (ht : t.ptr = .w64) (hm : 4096 ≤ t.memLimit)
    (mode : BuildMode) (env : Env) (T : RTy) (u u' r r' : List UInt8) (v v' : Carrier T)
    (he : u ++ r = u' ++ r') (hu : TypeDenotes mode env T v u)
    (hu' : TypeDenotes mode env T v' u') : u = u' ∧ v = v' := by
  have h1 := (C123_accepts t ht hm mode env T _ r v).mpr ⟨u, rfl, hu⟩
  have h2 := (C123_accepts t ht hm mode env T _ r' v').mpr ⟨u', rfl, hu'⟩
  rw [← he, h1] at h2
  simp only [Outcome.ok.injEq, Prod.mk.injEq] at h2
  obtain ⟨rfl, rfl⟩ := h2
  exact ⟨List.append_cancel_right he, rfl⟩

/-- The sample record is in the grammar of its type. -/
example : ∃ w enc, (ser .debug recordTy recordVal).exec = (enc, .ok ()) ∧
    Returned sampleEnv recordTy recordVal w ∧ TypeDenotes .debug sampleEnv recordTy w enc := by
  obtain ⟨h1, h2, h3, h4, h5, h6⟩ := record_reads ⟨.w64, 4096⟩ (by decide) .debug
  exact C123_written ⟨.w64, 4096⟩ rfl (by decide) _ _ sample_fair _ h1 h2 h3 _ h4 h5 h6

/-- And `C123_rejects` applies to it. -/
example (t : Target) (ht : t.ptr = .w64) (hm : 4096 ≤ t.memLimit) (mode : BuildMode) (env : Env) :
    ∃ e, Prog.run t (deTy t mode env recordTy) [] = .err e := by
  have d1 : ¬ SkippedDe [] := by decide
  have d2 : SkippedDe [skipAttr] := by decide
  have d3 : ¬ SkippedDe [docAttr] := by decide
  refine (C123_rejects t ht hm mode env _ ?_ (fun _ => ?_) ?_ _).mpr ?_
  iterate 3
    simp [recordTy, shapeTy, readParts, readPartsFields, readPartsVariants, readPartsPayload,
      d1, d2, d3]
  · intro used rest v hu hv
    obtain ⟨rfl, rfl⟩ := List.append_eq_nil_iff.mp hu.symm
    unfold recordTy at v hv
    rw [TypeDenotes, FieldsDenote] at hv
    obtain ⟨u, x, hux, ⟨h, -⟩ | ⟨-, h⟩, -⟩ := hv
    · exact d1 h
    · obtain ⟨rfl, rfl⟩ := List.append_eq_nil_iff.mp hux.symm
      rw [TypeDenotes, number_iff 32 (by simp)] at h
      simp [varintDecode] at h

/-! ## C124 changes nobody notices -/

/-- For types without maps, decimals, dates, times and integers of 16 or 32 bits: a value that
was read can be written, and the data are what is written exactly if they are as long. -/
theorem C124_canonical (t : Target) (ht : t.ptr = .w64) (hm : 4096 ≤ t.memLimit)
    (mode : BuildMode) (env : Env) (T : RTy) (hs : Symmetric T) (hf : Firm false T)
    (bs rest : List UInt8) (v : Carrier T)
    (hx : Prog.run t (deTy t mode env T) bs = .ok (v, rest)) :
    ∃ enc, (ser mode T v).exec = (enc, .ok ()) ∧
      enc.length + rest.length ≤ bs.length ∧
      (bs = enc ++ rest ↔ bs.length = enc.length + rest.length) := by
  obtain ⟨used, rfl, hv⟩ := (C123_accepts t ht hm mode env T bs rest v).mp hx
  obtain ⟨enc, h1, hc⟩ := tight_ty false mode env T (fun U hU => ⟨hs U hU, hf U hU⟩) v used hv
  simp only [Bool.false_eq_true] at hc
  refine ⟨enc, h1, by simp only [List.length_append]; have := hc.1; omega,
    fun hx => by rw [hx]; simp, fun hl => ?_⟩
  simp only [List.length_append] at hl
  rw [(hc.2 (by omega)).eq]

/-- So data changed without changing their length are not read as the value they were written
from. -/
theorem C124_damage (t : Target) (ht : t.ptr = .w64) (hm : 4096 ≤ t.memLimit) (mode : BuildMode)
    (env : Env) (T : RTy) (hs : Symmetric T) (hf : Firm false T) (v : Carrier T)
    (enc bad rest : List UInt8) (he : (ser mode T v).exec = (enc, .ok ()))
    (hl : bad.length = enc.length) (hb : bad ≠ enc) :
    Prog.run t (deTy t mode env T) (bad ++ rest) ≠ .ok (v, rest) := by
  intro hx
  obtain ⟨enc', h1, -, h2⟩ := C124_canonical t ht hm mode env T hs hf _ rest v hx
  rw [he] at h1
  cases h1
  exact hb (List.append_cancel_right (h2.mpr (by simp [hl])))

/-- For types without maps, `BigDecimal`s and `OffsetDateTime`s, data as long as what is written
for the value they are read as differ from it at most where it has 192 or 240. -/
theorem C124_where (t : Target) (ht : t.ptr = .w64) (hm : 4096 ≤ t.memLimit) (mode : BuildMode)
    (env : Env) (T : RTy) (hs : Symmetric T) (hf : Firm true T) (used rest : List UInt8)
    (v : Carrier T) (hx : Prog.run t (deTy t mode env T) (used ++ rest) = .ok (v, rest)) :
    ∃ enc, (ser mode T v).exec = (enc, .ok ()) ∧ enc.length ≤ used.length ∧
      (used.length = enc.length → Blurred used enc) := by
  obtain ⟨u, hu, hv⟩ := (C123_accepts t ht hm mode env T _ rest v).mp hx
  have hu := List.append_cancel_right hu
  subst hu
  obtain ⟨enc, h1, hc⟩ := tight_ty true mode env T (fun U hU => ⟨hs U hU, hf U hU⟩) v used hv
  have hc : Close True enc used := by simpa using hc
  exact ⟨enc, h1, hc.1, fun hl => (hc.2 hl).blurred⟩

/-- Not so with a map: entries in another order are read as the same map. -/
theorem C124_maps (t : Target) (ht : t.ptr = .w64) (hm : 4096 ≤ t.memLimit) (mode : BuildMode)
    (env : Env) : ∃ (v : Carrier (.btreeMap .u8)) (enc bad : List UInt8),
      (ser mode (.btreeMap .u8) v).exec = (enc, .ok ()) ∧
      bad.length = enc.length ∧ bad ≠ enc ∧ ¬ Blurred bad enc ∧
      Prog.run t (deTy t mode env (.btreeMap .u8)) enc = .ok (v, []) ∧
      Prog.run t (deTy t mode env (.btreeMap .u8)) bad = .ok (v, []) := by
  have ha : utf8 "a" = [97] := by decide
  have hb : utf8 "b" = [98] := by decide
  have hn1 : Number 64 1 [1] := .inl ⟨1, by decide, by decide, by decide, by decide⟩
  have hn2 : Number 64 2 [2] := .inl ⟨1, by decide, by decide, by decide, by decide⟩
  have pa : Prefixed (utf8 "a") [1, 97] := ⟨[1], by rw [ha]; exact hn1, by rw [ha]; rfl⟩
  have pb : Prefixed (utf8 "b") [1, 98] := ⟨[1], by rw [hb]; exact hn1, by rw [hb]; rfl⟩
  have e : ∀ x : UInt8, TypeDenotes mode env .u8 x [x] := fun x => by rw [TypeDenotes]
  refine ⟨([("a", 5), ("b", 6)] : List (String × UInt8)), [2, 1, 97, 5, 1, 98, 6],
    [2, 1, 98, 6, 1, 97, 5], ?_, rfl, by decide, by simp [Blurred], ?_, ?_⟩
  · cases mode <;> decide +kernel
  · refine (C123_accepts t ht hm mode env _ _ _ _).mpr ⟨_, (List.append_nil _).symm, ?_⟩
    rw [TypeDenotes]
    refine ⟨([("a", 5), ("b", 6)] : List (String × UInt8)), [2], [1, 97, 5, 1, 98, 6], ?_, rfl,
      hn2, ?_⟩
    · rw [Body.collected_iff]; rfl
    · exact ⟨[1, 97, 5], [1, 98, 6], rfl, ⟨[1, 97], [5], rfl, pa, e 5⟩, [1, 98, 6], [], rfl,
        ⟨[1, 98], [6], rfl, pb, e 6⟩, rfl⟩
  · refine (C123_accepts t ht hm mode env _ _ _ _).mpr ⟨_, (List.append_nil _).symm, ?_⟩
    rw [TypeDenotes]
    refine ⟨([("b", 6), ("a", 5)] : List (String × UInt8)), [2], [1, 98, 6, 1, 97, 5], ?_, rfl,
      hn2, ?_⟩
    · rw [Body.collected_iff]; rfl
    · exact ⟨[1, 98, 6], [1, 97, 5], rfl, ⟨[1, 98], [6], rfl, pb, e 6⟩, [1, 97, 5], [], rfl,
        ⟨[1, 97], [5], rfl, pa, e 5⟩, rfl⟩

/-- Nor with a `bigdecimal::BigDecimal`: 10 is read from digits 10 and scale 0 but written as
digits 1 and scale -1, just as long. -/
theorem C124_decimal (t : Target) (ht : t.ptr = .w64) (hm : 4096 ≤ t.memLimit) (mode : BuildMode)
    (env : Env) : ∃ (v : Carrier .numBigDecimal) (enc used : List UInt8),
      (ser mode .numBigDecimal v).exec = (enc, .ok ()) ∧
      used.length = enc.length ∧ ¬ Blurred used enc ∧
      Prog.run t (deTy t mode env .numBigDecimal) used = .ok (v, []) := by
  refine ⟨(⟨10, 0⟩ : Num.Decimal), [1, 1, 1], [1, 10, 0], ?_, rfl, by simp [Blurred], ?_⟩
  · cases mode <;> decide +kernel
  · refine (C123_accepts t ht hm mode env _ _ _ _).mpr ⟨_, (List.append_nil _).symm, ?_⟩
    rw [TypeDenotes]
    refine ⟨[10], [1, 10], [0], rfl, by decide +kernel,
      ⟨[1], .inl ⟨1, by decide, by decide, by decide, by decide⟩, rfl⟩,
      .inr ⟨by decide, .inl ⟨1, by decide, by decide, by decide, by decide⟩⟩⟩

/-- Nor with a `time::OffsetDateTime`: 1.5 s after the epoch is read from 0 s and 1500000000 ns
but written as 1 s and 500000000 ns, just as long. -/
theorem C124_instant (t : Target) (ht : t.ptr = .w64) (hm : 4096 ≤ t.memLimit) (mode : BuildMode)
    (env : Env) : ∃ (v : Carrier .offsetDateTime) (enc used : List UInt8),
      (ser mode .offsetDateTime v).exec = (enc, .ok ()) ∧
      used.length = enc.length ∧ ¬ Blurred used enc ∧
      Prog.run t (deTy t mode env .offsetDateTime) used = .ok (v, []) := by
  refine ⟨(⟨1, 500000000, 0⟩ : Time.OffsetDateTime), [2, 240, 0, 101, 205, 29],
    [0, 240, 0, 47, 104, 89], ?_, rfl, by simp [Blurred], ?_⟩
  · cases mode <;> decide +kernel
  · refine (C123_accepts t ht hm mode env _ _ _ _).mpr ⟨_, (List.append_nil _).symm, ?_⟩
    rw [TypeDenotes]
    exact ⟨0, 1500000000, [0], [240, 0, 47, 104, 89], rfl,
      .inl ⟨1, by decide, by decide, by decide, by decide⟩,
      .inr ⟨240, by decide, by decide, by decide⟩, by decide, by decide, by decide, by decide, rfl,
      by decide⟩

/-- A struct and an enum to which `C124_canonical` and `C124_damage` apply, and a record with
narrow integers and dates to which `C124_where` applies. -/
example :
    let T : RTy := .struct "S" (.named [.mk [] "a" .u64, .mk [docAttr] "b" (.vec .string),
      .mk [] "c" (.enum "E" [.mk [] "X" .unit, .mk [] "Y" (.unnamed [.mk [] "0" .numBigInt])])])
    let U : RTy := .struct "D" (.named [.mk [] "a" .u16, .mk [] "b" (.option .date)])
    Symmetric T ∧ Firm false T ∧ Symmetric U ∧ Firm true U := by
  have k1 : ¬ Skipped [] := by decide
  have k3 : ¬ Skipped [docAttr] := by decide
  have d1 : ¬ SkippedDe [] := by decide
  have d3 : ¬ SkippedDe [docAttr] := by decide
  have c1 : ¬ Conditional [] := by decide
  have c3 : ¬ Conditional [docAttr] := by decide
  refine ⟨?_, ?_, ?_, ?_⟩ <;> intro W hW <;>
    simp [typeParts, typePartsFields, typePartsVariants, k1, k3] at hW <;>
    (first
      | (rcases hW with rfl | rfl | rfl | rfl | rfl | rfl)
      | (rcases hW with rfl | rfl | rfl | rfl)) <;>
    simp [FirmPart, SymmetricPart, SymmetricFields, Spec.variantFields, variantAttrs, fieldAttrs,
      declared, k1, k3, d1, d3, c1, c3]

end Dlhn.Props
