import Verif.Proof.SameData
import Verif.Props.DeriveRead
/-!
# C136: bytes as a fingerprint of the data

`(ser mode T v).exec` are the bytes serializing `v : T` writes and how it ends.
`SameData T v w` of `Spec/SameData.lean` says that two values agree in everything the
format keeps.
-/
namespace Dlhn.Props

open Spec hiding variantFields
open Derive

/-! ## C136 -/

theorem written_parts {t : Target} {mode : BuildMode} {T : RTy} {v : Carrier T} (hv : Real t T v)
    (hd : DatesRebase mode T v) : ∀ p ∈ valueParts T v, Written t mode p :=
  fun p hp => ⟨hv p hp, fun e d he => hd e d (he ▸ hp)⟩

/-- Values with the same data have the same bytes, in whichever builds they are
serialized. -/
theorem C136_same (t : Target) (mode mode' : BuildMode) (T : RTy) (hs : Symmetric T)
    (v w : Carrier T) (hv : Real t T v) (hdv : DatesRebase mode T v) (hw : Real t T w)
    (hdw : DatesRebase mode' T w) (h : SameData T v w) :
    (ser mode T v).exec = (ser mode' T w).exec :=
  same_bytes t mode mode' T hs v w (written_parts hv hdv) (written_parts hw hdw) h

/-- If the bytes of a value begin the bytes of a value of the same type, from whichever
builds, then both carry the same data. -/
theorem C136_told (t : Target) (hm : 4096 ≤ t.memLimit) (mode mode' : BuildMode) (env : Env)
    (T : RTy) (hr : Readable T) (hs : Symmetric T) (hd : Defaulted env T)
    (v w : Carrier T) (hv : Real t T v) (hdv : DatesRebase mode T v) (hiv : InstantsInRange T v)
    (hw : Real t T w) (hdw : DatesRebase mode' T w) (hiw : InstantsInRange T w)
    (hp : (ser mode T v).exec.1 <+: (ser mode' T w).exec.1) : SameData T v w := by
  let env' : Env := { env with order := fun es => es }
  have hT : ∀ U ∈ typeParts T, TypeOk env' U := fun U hU => ⟨hr U hU, hs U hU, by
    have := hd U hU
    cases U <;> exact this⟩
  have key : ∀ (m : BuildMode) (u : Carrier T), Real t T u → DatesRebase m T u →
      InstantsInRange T u → ∃ x, ReturnedBy env' T u x ∧
        Reads t (ser .release T u) (deTy t .release env' T) x (ser m T u).exec.1 := by
    intro m u hu hdu hiu
    have hrel : DatesRebase .release T u := fun e => by cases e
    obtain ⟨x, bs, h1, h2⟩ := reads_by t .release env' hm T hT u
      (fun p hp => ⟨hu p hp, (fun e => by cases e), fun d he => hiu d (he ▸ hp)⟩)
    obtain ⟨y, cs, h3, h4⟩ := reads_by t m env' hm T hT u
      (fun p hp => ⟨hu p hp, fun e d he => hdu e d (he ▸ hp), fun d he => hiu d (he ▸ hp)⟩)
    have hself : SameData T u u := same_of_returned (fun h => h) T hs u u x h1 h1
    have e : (ser m T u).exec = (ser .release T u).exec :=
      C136_same t m .release T hs u u hu hdu hu hrel hself
    refine ⟨x, h1, ?_⟩
    rw [e, h2.bytes]
    exact h2
  obtain ⟨x, h1, h2⟩ := key mode v hv hdv hiv
  obtain ⟨y, k1, k2⟩ := key mode' w hw hdw hiw
  obtain ⟨r, hr⟩ := hp
  have e1 := h2.decodes .eof r
  have e2 := k2.decodes .eof []
  rw [List.append_nil, ← hr, e1] at e2
  simp only [Outcome.ok.injEq, Prod.mk.injEq] at e2
  obtain ⟨rfl, -⟩ := e2
  exact same_of_returned (fun h => h) T hs v w x h1 k1

/-- The bytes of two values are equal exactly if they carry the same data. -/
theorem C136_iff (t : Target) (hm : 4096 ≤ t.memLimit) (mode mode' : BuildMode) (env : Env)
    (T : RTy) (hr : Readable T) (hs : Symmetric T) (hd : Defaulted env T)
    (v w : Carrier T) (hv : Real t T v) (hdv : DatesRebase mode T v) (hiv : InstantsInRange T v)
    (hw : Real t T w) (hdw : DatesRebase mode' T w) (hiw : InstantsInRange T w) :
    (ser mode T v).exec.1 = (ser mode' T w).exec.1 ↔ SameData T v w :=
  ⟨fun h => C136_told t hm mode mode' env T hr hs hd v w hv hdv hiv hw hdw hiw (h ▸ ⟨[], by simp⟩),
    fun h => by rw [C136_same t mode mode' T hs v w hv hdv hw hdw h]⟩

/-- The bytes are no fingerprint of a `HashMap`: two maps with the same entries, in
another order, have different bytes; both are read as maps with these entries. -/
theorem C136_hash (t : Target) (mode mode' : BuildMode) :
    ∃ es fs : Carrier (.hashMap .u8), es.Perm fs ∧ Real t (.hashMap .u8) es ∧
      Real t (.hashMap .u8) fs ∧
      (ser mode (.hashMap .u8) es).exec.1 ≠ (ser mode' (.hashMap .u8) fs).exec.1 := by
  have key : ∀ a b : String, a ≠ b → (utf8 a).length = 1 → (utf8 b).length = 1 →
      Real t (.hashMap .u8) [(a, (1 : UInt8)), (b, (2 : UInt8))] ∧
      Real t (.hashMap .u8) [(b, (2 : UInt8)), (a, (1 : UInt8))] := by
    intro a b hab ha hb
    have h1 : 1 < 2 ^ t.ptr.bits := by cases t.ptr <;> decide
    have h2 : 2 < 2 ^ t.ptr.bits := by cases t.ptr <;> decide
    constructor <;>
    · intro p hp
      simp [valueParts] at hp
      rcases hp with rfl | rfl | rfl
      · simp [RealPart, ha, hb, hab, Ne.symm hab, h1, h2]
      · trivial
      · trivial
  obtain ⟨k1, k2⟩ := key "a" "b" (by decide) (by decide +kernel) (by decide +kernel)
  refine ⟨[("a", (1 : UInt8)), ("b", (2 : UInt8))], [("b", (2 : UInt8)), ("a", (1 : UInt8))],
    List.Perm.swap _ _ _, k1, k2, ?_⟩
  cases mode <;> cases mode' <;> decide +kernel

/-- Without the exceptions of `SameData`, equal bytes mean equal values. -/
theorem C136_exact (t : Target) (hm : 4096 ≤ t.memLimit) (mode mode' : BuildMode) (env : Env)
    (T : RTy) (hr : Readable T) (hs : Symmetric T) (hd : Defaulted env T) (hl : Lossless T)
    (v w : Carrier T) (hv : Real t T v) (hdv : DatesRebase mode T v)
    (hw : Real t T w) (hdw : DatesRebase mode' T w) :
    (ser mode T v).exec.1 = (ser mode' T w).exec.1 ↔ v = w := by
  have hi : ∀ u : Carrier T, InstantsInRange T u := fun u d hp =>
    (hl _ (part_type T u _ hp)).elim
  have e : ∀ (u : Carrier T), Real t T u → ∀ m, DatesRebase m T u →
      (ser m T u).exec = (ser .release T u).exec := by
    intro u hu m hdu
    have hrel : DatesRebase .release T u := fun e => by cases e
    refine C136_same t m .release T hs u u hu hdu hu hrel ?_
    exact C136_told t hm m m env T hr hs hd u u hu hdu (hi u) hu hdu (hi u) ⟨[], by simp⟩
  have hrel : ∀ u : Carrier T, DatesRebase .release T u := fun u e => by cases e
  let env' : Env := { env with order := fun es => es }
  have hd' : Defaulted env' T := fun U hU => by
    have := hd U hU
    cases U <;> exact this
  constructor
  · intro h
    rw [e v hv mode hdv, e w hw mode' hdw] at h
    exact C83_prefix_free t hm .release env' (fun es => List.Perm.refl es) T hr hs hd' hl v w hv (hrel v) hw
      (hrel w) (h ▸ ⟨[], by simp⟩)
  · rintro rfl
    rw [e v hv mode hdv, e v hw mode' hdw]

/-! ### A case -/

/-- `struct Price { amount: bigdecimal::BigDecimal, at: time::OffsetDateTime,
#[serde(skip)] cached: u8, by: HashMap<String, u8> }` -/
def priceTy : RTy := .struct "Price" (.named [.mk [] "amount" .numBigDecimal,
  .mk [] "at" .offsetDateTime, .mk [skipAttr] "cached" .u8, .mk [] "by" (.hashMap .u8)])

/-- 1.50 at 02:00:00 +02:00 with something cached. -/
def priceVal : Carrier priceTy := (⟨150, 2⟩, ⟨0, 0, 7200⟩, (9 : UInt8), [("x", (1 : UInt8))], ())

/-- 1.5 at 00:00:00 +00:00 with nothing cached. -/
def priceVal' : Carrier priceTy := (⟨15, 1⟩, ⟨0, 0, 0⟩, (0 : UInt8), [("x", (1 : UInt8))], ())

theorem price_type : Readable priceTy ∧ Symmetric priceTy ∧ Defaulted sampleEnv priceTy := by
  have k1 : ¬ Skipped [] := by decide
  have k2 : Skipped [skipAttr] := by decide
  have d1 : ¬ SkippedDe [] := by decide
  have d2 : SkippedDe [skipAttr] := by decide
  have c1 : ¬ Conditional [] := by decide
  have c2 : ¬ Conditional [skipAttr] := by decide
  refine ⟨?_, ?_, ?_⟩ <;>
  · intro U hU
    simp [priceTy, typeParts, typePartsFields, k1, k2] at hU
    rcases hU with rfl | rfl | rfl | rfl | rfl <;>
      simp [ReadablePart, SymmetricPart, SymmetricFields, DefaultedPart, DefaultedFields, declared,
        fieldAttrs, fieldType, sampleEnv, k1, k2, d1, d2, c1, c2]

theorem price_real (t : Target) (mode : BuildMode) (a : Num.Decimal)
    (ha : ∃ bs, ShortestSigned a.intVal bs ∧ bs.length < 2 ^ t.ptr.bits) (hf : ScaleFits a)
    (off : Int) (ho : -93600 < off ∧ off < 93600) (c : UInt8) :
    let v : Carrier priceTy := (a, ⟨0, 0, off⟩, c, [("x", (1 : UInt8))], ())
    Real t priceTy v ∧ DatesRebase mode priceTy v ∧ InstantsInRange priceTy v := by
  have k1 : ¬ Skipped [] := by decide
  have k2 : Skipped [skipAttr] := by decide
  intro v
  have hp : ∀ p, p ∈ valueParts priceTy v ↔ p = ⟨priceTy, v⟩ ∨ p = ⟨.numBigDecimal, a⟩ ∨
      p = ⟨.offsetDateTime, ⟨0, 0, off⟩⟩ ∨ p = ⟨.hashMap .u8, [("x", (1 : UInt8))]⟩ ∨
      p = ⟨.u8, (1 : UInt8)⟩ := by
    intro p
    simp [v, priceTy, valueParts, valuePartsFields, k1, k2]
  refine ⟨fun p h => ?_, fun _ d h => ?_, fun d h => ?_⟩
  · rcases (hp p).mp h with rfl | rfl | rfl | rfl | rfl
    · trivial
    · exact ⟨ha, hf⟩
    · have h1 : firstSecond < -93600 := by decide +kernel
      have h2 : 93600 < lastSecond := by decide +kernel
      refine ⟨Nat.zero_lt_succ _, ho.1, ho.2, ?_, ?_⟩ <;> dsimp only <;> omega
    · refine ⟨?_, ?_, ?_⟩
      · cases t.ptr <;> decide
      · intro e he
        simp only [List.mem_singleton] at he
        subst he
        cases t.ptr <;> decide +kernel
      · simp
    · trivial
  · rcases (hp _).mp h with h | h | h | h | h <;> cases h
  · rcases (hp _).mp h with h | h | h | h | h <;> cases h
    exact ⟨show firstSecond ≤ 0 by decide +kernel, show 0 ≤ lastSecond by decide +kernel⟩

theorem small_fits (i : Int) (s : Int64) (h1 : 0 < i) (h2 : i < 1000)
    (hs : -1000 ≤ s.toInt) : ScaleFits ⟨i, s⟩ := by
  intro _ k hk
  have h3 : (10 ^ k : Int) ≤ i := Int.le_of_dvd h1 hk
  have h4 : k < 10 ^ k := Nat.lt_pow_self (by decide)
  have h5 : (k : Int) < 10 ^ k := by exact_mod_cast h4
  dsimp only
  omega

theorem small_short (t : Target) (i : Int) (h : i ≠ 0)
    (hl : (Num.toSignedBytesLe i).length < 1000) :
    ∃ bs, ShortestSigned i bs ∧ bs.length < 2 ^ t.ptr.bits :=
  ⟨_, Num.shortest_signed h, by
    have : 1000 < 2 ^ t.ptr.bits := by cases t.ptr <;> decide
    omega⟩

/-- The two prices carry the same data and meet the hypotheses of `C136_iff`. -/
theorem price_same : SameData priceTy priceVal priceVal' := by
  have k1 : ¬ Skipped [] := by decide
  have k2 : Skipped [skipAttr] := by decide
  simp only [priceTy, priceVal, priceVal', SameData, SameKept, k1, k2, Pointwise]
  refine ⟨fun _ => ⟨0, 1, by decide, by decide⟩, fun _ => ?_, fun h => absurd trivial h,
    fun _ => ⟨⟨trivial, trivial⟩, trivial⟩, trivial⟩
  decide

/-- Whatever the target and builds, they have the same bytes. -/
example (t : Target) (mode mode' : BuildMode) :
    (ser mode priceTy priceVal).exec = (ser mode' priceTy priceVal').exec := by
  obtain ⟨h1, h2, -⟩ := price_real t mode ⟨150, 2⟩ (small_short t 150 (by decide) (by decide +kernel))
    (small_fits 150 2 (by decide) (by decide) (by decide)) 7200 (by decide) 9
  obtain ⟨k1, k2, -⟩ := price_real t mode' ⟨15, 1⟩ (small_short t 15 (by decide) (by decide +kernel))
    (small_fits 15 1 (by decide) (by decide) (by decide)) 0 (by decide) 0
  exact C136_same t mode mode' priceTy price_type.2.1 priceVal priceVal' h1 h2 k1 k2 price_same

/-- Another amount gives other bytes. -/
example (t : Target) (hm : 4096 ≤ t.memLimit) (mode mode' : BuildMode) :
    (ser mode priceTy priceVal).exec.1 ≠
      (ser mode' priceTy ((⟨151, 2⟩, priceVal.2) : Carrier priceTy)).exec.1 := by
  obtain ⟨h1, h2, h3⟩ := price_real t mode ⟨150, 2⟩ (small_short t 150 (by decide) (by decide +kernel))
    (small_fits 150 2 (by decide) (by decide) (by decide)) 7200 (by decide) 9
  obtain ⟨k1, k2, k3⟩ := price_real t mode' ⟨151, 2⟩
    (small_short t 151 (by decide) (by decide +kernel))
    (small_fits 151 2 (by decide) (by decide) (by decide)) 7200 (by decide) 9
  intro he
  have := (C136_iff t hm mode mode' sampleEnv priceTy price_type.1 price_type.2.1 price_type.2.2
    priceVal ((⟨151, 2⟩, priceVal.2) : Carrier priceTy) h1 h2 h3 k1 k2 k3).mp he
  have n1 : ¬ Skipped [] := by decide
  simp only [priceTy, priceVal, SameData, SameKept] at this
  obtain ⟨a, b, e1, e2⟩ := this.1 n1
  have hab : a = b := by
    have : ((2 : Int64).toInt : Int) = 2 := by decide
    simp only [this] at e1
    omega
  subst hab
  have : (0 : Int) < 10 ^ a := Int.pow_pos (by decide)
  simp only at e2
  have := Int.eq_of_mul_eq_mul_right (by omega) e2
  omega

end Dlhn.Props
