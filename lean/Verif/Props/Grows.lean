import Verif.Proof.GrowsExact
import Verif.Props.DeriveRead
/-!
# C141: headers tell whether data can still be read

`Grows a b` (Spec/Grows.lean): the header `a` of a type became `b` by changes that keep data
readable; `Retold x y`: the value `x` before such changes is `y` after them.
-/
namespace Dlhn.Props

open Spec hiding variantFields
open Derive

/-! ## C141 -/

/-- A program that has both headers can check it. -/
theorem C141_check (a b : Header) : hasGrown a b = true ↔ Grows a b :=
  ⟨grows_of a b, fun h => h.check⟩

/-- The check accepts all changes after which every value has a counterpart, if every enum in the
old header has a variant and no tuple or enum has 65536 members. (Values of a type with an enum
without variants do not exist, and those of a vector of it are empty.) -/
theorem C141_complete (t : Target) (mode : BuildMode) (old new : Header)
    (hi : .enum [] ∉ headerParts old) (hn : Countable old)
    (h : ∀ x, Body.validate old x = true → Exists t x → CleanDecimals x → DatesFit mode x →
      ∃ y, Retold x y ∧ Body.validate new y = true) : Grows old new := by
  refine grows_of _ _ (hasGrown_of (t := t) (mode := mode) old new hi hn fun x h1 h2 => ?_)
  obtain ⟨y, h3, h4⟩ := h x h1 h2.exist h2.clean h2.dates
  exact ⟨y, h4, h3.flat⟩

/-- Dynamic values: whatever is valid for the old header and was written with it is read with the
new one, as its counterpart. -/
theorem C141_dynamic (t : Target) (hm : 4096 ≤ t.memLimit) (mode : BuildMode) (size : Nat)
    (old new : Header) (h : Grows old new) (x : Body) (hv : Body.validate old x = true)
    (he : Exists t x) (hc : CleanDecimals x) (hd : DatesFit mode x) :
    ∃ y bs, Retold x y ∧ Body.validate new y = true ∧ Exists t y ∧
      Body.toVec mode x = (bs, .ok ()) ∧ Body.toVec mode y = (bs, .ok ()) ∧
      (VectorsFit t size y →
        ∀ rest, Prog.run t (Body.de t mode size new) (bs ++ rest) = .ok (y, rest)) := by
  obtain ⟨y, h1, h2⟩ := h.retold x ((Body.validate_iff old x).mp hv)
  have hv' := (Body.validate_iff new y).mpr h1
  have hok := h2.ok (t := t) (mode := mode) (N := False) (D := False)
    ⟨he, hc, hd, fun h => h.elim, fun h => h.elim⟩
  have e1 := C35_encoding t mode x he hd
  have e2 := C35_encoding t mode y hok.exist hok.dates
  refine ⟨y, bodyWire x, h2, hv', hok.exist, e1, by rw [e2, h2.wire], fun hf => ?_⟩
  obtain ⟨enc, e3, e4⟩ := C35_roundtrip t hm mode size new y hv' hok.exist hok.clean hok.dates hf
  rw [e2] at e3
  cases e3
  rw [h2.wire]
  exact e4

/-- Types: whatever was written with a type that announces the old header is read by every type
that announces the new one, as a value that says the same. -/
theorem C141_typed (t : Target) (hm : 4096 ≤ t.memLimit) (mode : BuildMode) (env : Env)
    (ho : FairOrder env) (T U : RTy) (old new : Header) (h : Grows old new) (hT : Announces T old)
    (hU : Announces U new) (hpT : Plain T) (hr : Readable U) (hp : Plain U) (hs : Symmetric U)
    (hd : Defaulted env U) (v : Carrier T) (hv : Real t T v) (hdate : DatesRebase mode T v)
    (ht : ChecksTime U → TimesExistIn T v) (hn : HasNumDecimal U → DigitsDenoteIn T v) :
    ∃ bs x y w, (ser mode T v).exec = (bs, .ok ()) ∧ Mirrors T v x ∧ Retold x y ∧
      SameContent U w y ∧
      ∀ fin rest, Prog.exec t fin (deTy t mode env U) (bs ++ rest) = .ok (w, rest) := by
  obtain ⟨hT, hc⟩ := (announces_iff T old).mp hT
  have ha0 : ∀ n, t.allocate (n * 0) = none := fun n => by simp [Target.allocate]
  obtain ⟨x, bs, hM, ha⟩ := agree (N := ChecksTime U) (D := HasNumDecimal U) t mode 0 hm T old hT
    hc hpT (fun hs _ => ha0 _) v fun p hpp => ⟨hv p hpp, fun U vs _ => ha0 _,
      fun hmode d he => hdate hmode d (he ▸ hpp), fun hN d he => (ht hN).1 d (he ▸ hpp),
      fun hN d he => (ht hN).2.1 d (he ▸ hpp), fun hN d he => (ht hN).2.2 d (he ▸ hpp),
      fun hD x he => hn hD x (he ▸ hpp)⟩
  have hconf := Body.returns_conforms t mode 0 old .eof _ _ _ (ha.decodes .eof [])
  obtain ⟨y, h1, h2⟩ := h.retold x hconf
  obtain ⟨w, h3, h4⟩ := takes_body (mode := mode) env ho hm U new ((announces_iff U new).mp hU).1
    (readPart_of hr hp hs hd) y h1 (h2.ok ha.good) bs (h2.spells bs ha.spells)
  exact ⟨bs, x, y, w, ha.bytes, hM, h2, h3, h4⟩

/-- Without the check: after a variant was inserted at the front, data are taken for another
variant. -/
theorem C141_inserted (t : Target) (hm : 4096 ≤ t.memLimit) (mode : BuildMode) (size : Nat) :
    hasGrown (.enum [.uint8, .unit]) (.enum [.boolean, .uint8, .unit]) = false ∧
    Body.validate (.enum [.uint8, .unit]) (.enum 0 (.uint8 1)) = true ∧
    ∀ bs, Body.toVec mode (.enum 0 (.uint8 1)) = (bs, .ok ()) →
      Prog.run t (Body.de t mode size (.enum [.boolean, .uint8, .unit])) bs
        = .ok (.enum 0 (.boolean true), []) := by
  refine ⟨by simp [hasGrown, variantsGrown], by simp [Body.validate, Body.validateNth], ?_⟩
  intro bs hbs
  have hex : Exists t (.enum 0 (.boolean true)) := by simp [Spec.Exists, parts, LengthsFit]
  have hdf : DatesFit mode (.enum 0 (.boolean true)) := by simp [DatesFit, parts]
  obtain ⟨enc, e1, e2⟩ := C35_roundtrip t hm mode size (.enum [.boolean, .uint8, .unit])
    (.enum 0 (.boolean true)) (by simp [Body.validate, Body.validateNth]) hex
    (by simp [CleanDecimals, parts]) hdf (by simp [VectorsFit, parts])
  rw [C35_encoding t mode _ hex hdf] at e1
  rw [C35_encoding t mode (.enum 0 (.uint8 1)) (by simp [Spec.Exists, parts, LengthsFit])
    (by simp [DatesFit, parts])] at hbs
  cases e1
  cases hbs
  have := e2 []
  rw [List.append_nil] at this
  rw [← this]
  simp [bodyWire]

/-! Examples: a type over the years. -/

example : .enum [] ∉ headerParts (.tuple [.uint32, .string, .enum [.unit, .boolean]]) ∧
    Countable (.tuple [.uint32, .string, .enum [.unit, .boolean]]) := by
  simp [headerParts, headersParts, Countable, AllCountable]

/-- A variant that was removed is missed by some value. -/
example (t : Target) (mode : BuildMode) : ∃ x, Body.validate (.enum [.unit, .boolean]) x = true ∧
    Exists t x ∧ ∀ y, Retold x y → Body.validate (.enum [.unit]) y = false := by
  refine Classical.byContradiction fun hne => ?_
  have := (C141_check _ _).mpr (C141_complete t mode (.enum [.unit, .boolean]) (.enum [.unit])
    (by simp [headerParts, headersParts]) (by simp [Countable, AllCountable]) fun x h1 h2 _ _ =>
      Classical.byContradiction fun h3 => hne ⟨x, h1, h2, fun y hy => by
        cases hv : Body.validate (.enum [.unit]) y
        · rfl
        · exact absurd ⟨y, hy, hv⟩ h3⟩)
  simp [hasGrown, variantsGrown] at this

example : hasGrown (.tuple [.uint32, .string, .enum [.unit, .boolean]])
    (.tuple [.uint32, .binary, .enum [.tuple [], .uint8, .array .string]]) = true := by
  simp [hasGrown, allGrown, variantsGrown]

example : Retold (.tuple [.uint32 7, .string "a", .enum 1 (.boolean true)])
    (.tuple [.uint32 7, .binary (utf8 "a"), .enum 1 (.uint8 1)]) := by
  refine .tuple rfl fun i a b ha hb => ?_
  match i with
  | 0 => cases ha; cases hb; exact .same _
  | 1 => cases ha; cases hb; exact .string _
  | 2 => cases ha; cases hb; exact .enum 1 (.boolean true)
  | i + 3 => simp at ha

/-- `enum Shape` of Props/Derive.lean, later: `enum Shape { Empty, Circle(u16), Rect { w: u8,
h: u8 }, Named(String) }` -/
def laterTy : RTy := .enum "Shape" [.mk [] "Empty" .unit,
  .mk [docAttr] "Circle" (.unnamed [.mk [] "0" .u16]),
  .mk [] "Rect" (.named [.mk [] "w" .u8, .mk [] "h" .u8]),
  .mk [] "Named" (.unnamed [.mk [] "0" .string])]

theorem later_meets (env : Env) : Announces shapeTy (.enum [.unit, .uint16, .tuple [.uint8, .uint8]]) ∧
    Announces laterTy (.enum [.unit, .uint16, .tuple [.uint8, .uint8], .string]) ∧
    Grows (.enum [.unit, .uint16, .tuple [.uint8, .uint8]])
      (.enum [.unit, .uint16, .tuple [.uint8, .uint8], .string]) ∧
    Plain shapeTy ∧ Readable laterTy ∧ Plain laterTy ∧ Symmetric laterTy ∧ Defaulted env laterTy ∧
    ¬ ChecksTime laterTy ∧ ¬ HasNumDecimal laterTy := by
  have hk : ¬ Skipped [] ∧ ¬ Skipped [docAttr] := by decide
  have hp : typeParts laterTy = [laterTy, .u16, .u8, .u8, .string] := by
    simp [laterTy, typeParts, typePartsVariants, typePartsFields, hk]
  have hq : typeParts shapeTy = [shapeTy, .u16, .u8, .u8] := by
    simp [shapeTy, typeParts, typePartsVariants, typePartsFields, hk]
  have hk' : ¬ SkippedDe [] ∧ ¬ SkippedDe [docAttr] := by decide
  have hc : ¬ Conditional [] ∧ ¬ Conditional [docAttr] := by decide
  have all : ∀ P : RTy → Prop, P laterTy → P .u16 → P .u8 → P .string → ∀ U ∈ typeParts laterTy, P U := by
    intro P a b c d U hU
    rw [hp] at hU
    simp only [List.mem_cons, List.not_mem_nil, or_false] at hU
    rcases hU with rfl | rfl | rfl | rfl | rfl <;> assumption
  refine ⟨(announces_iff _ _).mpr ⟨shape_described, by simp [Countable, AllCountable]⟩,
    (announces_iff _ _).mpr ⟨.enum _ _ _ (by decide) (.cons _ _ _ _ .none (.cons _ _ _ _ (.one _ _ .u16)
      (.cons _ _ _ _ (.many _ _ (by decide) (.cons _ _ _ _ .u8 (.cons _ _ _ _ .u8 .nil)))
        (.cons _ _ _ _ (.one _ _ .string) .nil)))), by simp [Countable, AllCountable]⟩,
    (C141_check _ _).mp (by simp [hasGrown, allGrown, variantsGrown]), ?_, ?_, ?_, ?_, ?_, ?_, ?_⟩
  · intro U hU
    rw [hq] at hU
    simp only [List.mem_cons, List.not_mem_nil, or_false] at hU
    rcases hU with rfl | rfl | rfl | rfl <;>
      simp [shapeTy, PlainPart, variantAttrs, Spec.variantFields, fieldAttrs, declared, hk, hc]
  · exact all _ trivial trivial trivial trivial
  · exact all _ (by simp [laterTy, PlainPart, variantAttrs, Spec.variantFields, fieldAttrs, declared, hk, hc])
      trivial trivial trivial
  · exact all _ (by simp [laterTy, SymmetricPart, SymmetricFields, variantAttrs, Spec.variantFields,
      fieldAttrs, declared, hk, hk', hc]) trivial trivial trivial
  · exact all _ (by simp [laterTy, DefaultedPart, DefaultedFields, Spec.variantFields, fieldAttrs, declared, hk'])
      trivial trivial trivial
  · rintro ⟨U, hU, h⟩
    exact all (fun U => ¬ CheckedPart U) id id id id U hU h
  · intro h
    rw [HasNumDecimal, hp] at h
    simp [laterTy] at h

/-- Written before the variant was added, read after. -/
example (mode : BuildMode) :
    (ser mode shapeTy (.inr (.inl (300, ())))).exec.1 = [1, 172, 4] ∧
    Prog.run ⟨.w64, 4096⟩ (deTy ⟨.w64, 4096⟩ mode sampleEnv laterTy) [1, 172, 4] =
      .ok (.inr (.inl (300, ())), []) := by
  cases mode <;> exact ⟨by decide +kernel, rfl⟩

end Dlhn.Props
