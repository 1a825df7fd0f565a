import Verif.Spec.Builds
import Verif.Model.Body
import Verif.Model.Stack
import Verif.Model.Rec
import Verif.Model.Visit
import Verif.Model.DeriveDe
/-!
# Lemmas for C132: programs that are alike up to panics
-/
namespace Dlhn
open Spec

/-- The same calls and the same results, except that the first may stop with a panic in `Q`,
and that its allocations are related to those of the second by `R`. -/
inductive Guards {ε α : Type} (Q : PanicKind → Prop) (R : Nat → Nat → Prop) :
    Prog ε α → Prog ε α → Prop where
  | stop (q : PanicKind) (hq : Q q) (p : Prog ε α) : Guards Q R (.done (.panic q)) p
  | done (o : Outcome ε α) : Guards Q R (.done o) (.done o)
  | readExact (n : Nat) (f : IoErr → ε) (k k' : Vector UInt8 n → Prog ε α)
      (h : ∀ v, Guards Q R (k v) (k' v)) : Guards Q R (.readExact n f k) (.readExact n f k')
  | takeToEnd (n : Nat) (f : IoErr → ε) (k k' : List UInt8 → Prog ε α)
      (h : ∀ v, Guards Q R (k v) (k' v)) : Guards Q R (.takeToEnd n f k) (.takeToEnd n f k')
  | alloc (n n' : Nat) (hn : R n n') (k k' : Prog ε α) (h : Guards Q R k k') :
      Guards Q R (.alloc n k) (.alloc n' k')

namespace Guards

variable {ε α β : Type} {Q : PanicKind → Prop} {R : Nat → Nat → Prop}

theorem refl (hR : ∀ n, R n n) (p : Prog ε α) : Guards Q R p p := by
  induction p with
  | done o => exact .done o
  | readExact n f k ih => exact .readExact n f k k ih
  | takeToEnd n f k ih => exact .takeToEnd n f k k ih
  | alloc n k ih => exact .alloc n n (hR n) k k ih

theorem bind {p p' : Prog ε α} {f f' : α → Prog ε β} (h : Guards Q R p p')
    (hf : ∀ a, Guards Q R (f a) (f' a)) : Guards Q R (p.bind f) (p'.bind f') := by
  induction h with
  | stop q hq p => exact .stop q hq _
  | done o => cases o with
    | ok a => exact hf a
    | err e => exact .done _
    | panic q => exact .done _
  | readExact n g k k' _ ih => exact .readExact n g _ _ ih
  | takeToEnd n g k k' _ ih => exact .takeToEnd n g _ _ ih
  | alloc n n' hn k k' _ ih => exact .alloc n n' hn _ _ ih

theorem bind' {p p' : Prog ε α} {f f' : α → Prog ε β} (h : Guards Q R p p')
    (hf : ∀ a, Guards Q R (f a) (f' a)) : Guards Q R (p >>= f) (p' >>= f') := h.bind hf

theorem map {p p' : Prog ε α} (f : α → β) (h : Guards Q R p p') :
    Guards Q R (do let a ← p; pure (f a)) (do let a ← p'; pure (f a)) :=
  h.bind fun _ => .done _

theorem ite {c : Prop} [Decidable c] {p p' r r' : Prog ε α} (h : Guards Q R p p')
    (h' : Guards Q R r r') : Guards Q R (if c then p else r) (if c then p' else r') := by
  split
  · exact h
  · exact h'

theorem times {p p' : Prog DeErr α} (h : Guards Q R p p') (n : Nat) :
    Guards Q R (De.times n p) (De.times n p') := by
  induction n with
  | zero => exact .done _
  | succ n ih => exact h.bind fun a => ih.bind fun as => .done _

theorem replicateM {p p' : Prog IoErr α} (h : Guards Q R p p') (n : Nat) :
    Guards Q R (Header.replicateM n p) (Header.replicateM n p') := by
  induction n with
  | zero => exact .done _
  | succ n ih => exact h.bind fun a => ih.bind fun as => .done _

/-- Guarded programs do the same or panic. -/
theorem does {t t' : Target}
    (ha : ∀ n n', R n n' → (∀ q, t.allocate n = some q → Q q ∨ t'.allocate n' = some q) ∧
      (t.allocate n = none → t'.allocate n' = none))
    {p p' : Prog ε α} (h : Guards Q R p p') : DoesOrPanics Q t t' p p' := by
  intro σ step s cs o s'
  constructor
  · intro hr
    induction h generalizing s cs o s' with
    | stop q hq p => cases hr; exact .inl ⟨q, hq, rfl⟩
    | done o => cases hr; exact .inr (.done o _)
    | readExact n g k k' _ ih =>
      cases hr with
      | readExact v hx hk => exact (ih _ _ _ _ _ hk).imp id fun h => .readExact v hx h
      | readExactErr hx => exact .inr (.readExactErr hx)
    | takeToEnd n g k k' _ ih =>
      cases hr with
      | takeToEnd hx hk => exact (ih _ _ _ _ _ hk).imp id fun h => .takeToEnd hx h
      | takeToEndErr hx => exact .inr (.takeToEndErr hx)
    | alloc n n' hn k k' _ ih =>
      cases hr with
      | alloc hx hk => exact (ih _ _ _ _ hk).imp id fun h => .alloc ((ha n n' hn).2 hx) h
      | allocPanic hx =>
        rcases (ha n n' hn).1 _ hx with hq | hq
        · exact .inl ⟨_, hq, rfl⟩
        · exact .inr (.allocPanic hq)
  · intro hr
    induction h generalizing s cs o s' with
    | stop q hq p => exact .inr ⟨q, [], s, hq, List.nil_prefix, .done _ _⟩
    | done o => cases hr; exact .inl (.done o _)
    | readExact n g k k' _ ih =>
      cases hr with
      | readExact v hx hk =>
        rcases ih _ _ _ _ _ hk with h | ⟨q, cs₁, s₁, hq, ⟨r, hp⟩, h⟩
        · exact .inl (.readExact v hx h)
        · exact .inr ⟨q, _, s₁, hq, ⟨r, by rw [List.append_assoc, hp]⟩, .readExact v hx h⟩
      | readExactErr hx => exact .inl (.readExactErr hx)
    | takeToEnd n g k k' _ ih =>
      cases hr with
      | takeToEnd hx hk =>
        rcases ih _ _ _ _ _ hk with h | ⟨q, cs₁, s₁, hq, ⟨r, hp⟩, h⟩
        · exact .inl (.takeToEnd hx h)
        · exact .inr ⟨q, _, s₁, hq, ⟨r, by rw [List.append_assoc, hp]⟩, .takeToEnd hx h⟩
      | takeToEndErr hx => exact .inl (.takeToEndErr hx)
    | alloc n n' hn k k' _ ih =>
      cases hx : t.allocate n with
      | none =>
        cases hr with
        | alloc hx' hk =>
          rcases ih _ _ _ _ hk with h | ⟨q, cs₁, s₁, hq, hp, h⟩
          · exact .inl (.alloc hx h)
          · exact .inr ⟨q, cs₁, s₁, hq, hp, .alloc hx h⟩
        | allocPanic hx' => rw [(ha n n' hn).2 hx] at hx'; cases hx'
      | some q =>
        rcases (ha n n' hn).1 q hx with hq | hq
        · exact .inr ⟨q, [], s, hq, List.nil_prefix, .allocPanic hx⟩
        · cases hr with
          | alloc hx' hk => rw [hq] at hx'; cases hx'
          | allocPanic hx' => rw [hq] at hx'; cases hx'; exact .inl (.allocPanic hx)

/-- The same for a byte slice. -/
theorem exec {t t' : Target}
    (ha : ∀ n n', R n n' → (∀ q, t.allocate n = some q → Q q ∨ t'.allocate n' = some q) ∧
      (t.allocate n = none → t'.allocate n' = none))
    {p p' : Prog ε α} (h : Guards Q R p p') (fin : Ending) (bs : List UInt8) :
    (∃ q, Q q ∧ p.exec t fin bs = .panic q) ∨ p.exec t fin bs = p'.exec t' fin bs := by
  induction h generalizing bs with
  | stop q hq p => exact .inl ⟨q, hq, rfl⟩
  | done o => cases o <;> exact .inr rfl
  | readExact n g k k' _ ih =>
    simp only [Prog.exec]
    split
    · exact ih _ _
    · exact .inr rfl
  | takeToEnd n g k k' _ ih =>
    simp only [Prog.exec]
    split
    · exact ih _ _
    · cases fin with
      | eof => exact ih _ _
      | fail e => exact .inr rfl
  | alloc n n' hn k k' _ ih =>
    simp only [Prog.exec]
    cases hx : t.allocate n with
    | none => rw [(ha n n' hn).2 hx]; exact ih _
    | some q =>
      rcases (ha n n' hn).1 q hx with hq | hq
      · exact .inl ⟨q, hq, rfl⟩
      · rw [hq]; exact .inr rfl

end Guards
/-! ## Encoders -/

/-- The same writes and the same results, except that the first may stop with a panic in
`Q`. -/
inductive WGuards {ε : Type} (Q : PanicKind → Prop) : WProg ε → WProg ε → Prop where
  | stop (q : PanicKind) (hq : Q q) (p : WProg ε) : WGuards Q (.done (.panic q)) p
  | done (o : Outcome ε Unit) : WGuards Q (.done o) (.done o)
  | writeAll (bs : List UInt8) (f : IoErr → ε) (k k' : WProg ε) (h : WGuards Q k k') :
      WGuards Q (.writeAll bs f k) (.writeAll bs f k')

namespace WGuards

variable {ε : Type} {Q : PanicKind → Prop}

theorem refl (p : WProg ε) : WGuards Q p p := by
  induction p with
  | done o => exact .done o
  | writeAll bs f k ih => exact .writeAll bs f k k ih

theorem andThen {p p' q q' : WProg ε} (h : WGuards Q p p') (hq : WGuards Q q q') :
    WGuards Q (p.andThen q) (p'.andThen q') := by
  induction h with
  | stop q hq p => exact .stop q hq _
  | done o => cases o with
    | ok a => exact hq
    | err e => exact .done _
    | panic q => exact .done _
  | writeAll bs f k k' _ ih => exact .writeAll bs f _ _ ih

theorem writes {p p' : WProg ε} (h : WGuards Q p p') : WritesOrPanics Q p p' := by
  intro σ step s cs o s'
  constructor
  · intro hr
    induction h generalizing s cs o s' with
    | stop q hq p => cases hr; exact .inl ⟨q, hq, rfl⟩
    | done o => cases hr; exact .inr (.done o _)
    | writeAll bs f k k' _ ih =>
      cases hr with
      | writeAllErr hx => exact .inr (.writeAllErr hx)
      | writeAll hx hk => exact (ih _ _ _ _ hk).imp id fun h => .writeAll hx h
  · intro hr
    induction h generalizing s cs o s' with
    | stop q hq p => exact .inr ⟨q, [], s, hq, List.nil_prefix, .done _ _⟩
    | done o => cases hr; exact .inl (.done o _)
    | writeAll bs f k k' _ ih =>
      cases hr with
      | writeAllErr hx => exact .inl (.writeAllErr hx)
      | writeAll hx hk =>
        rcases ih _ _ _ _ hk with h | ⟨q, cs₁, s₁, hq, ⟨r, hp⟩, h⟩
        · exact .inl (.writeAll hx h)
        · exact .inr ⟨q, _, s₁, hq, ⟨r, by rw [List.append_assoc, hp]⟩, .writeAll hx h⟩

/-- The same for a `Vec<u8>`. -/
theorem exec {p p' : WProg ε} (h : WGuards Q p p') :
    (∃ q, Q q ∧ p.exec.2 = .panic q ∧ p.exec.1 <+: p'.exec.1) ∨ p.exec = p'.exec := by
  induction h with
  | stop q hq p => exact .inl ⟨q, hq, rfl, List.nil_prefix⟩
  | done o => exact .inr rfl
  | writeAll bs f k k' _ ih =>
    rcases ih with ⟨q, hq, ho, r, hp⟩ | h
    · exact .inl ⟨q, hq, ho, r, by simp only [WProg.exec, List.append_assoc, hp]⟩
    · exact .inr (by simp only [WProg.exec, h])

end WGuards

/-! ## Overflow checks -/

/-- The second build is a release build, unless the two are the same; then overflow is among
the panics allowed. -/
def Laxer (Q : PanicKind → Prop) (mode mode' : BuildMode) : Prop :=
  mode = mode' ∨ (mode' = .release ∧ Q .overflow)

section
variable {Q : PanicKind → Prop} {mode mode' : BuildMode}

theorem Laxer.addI32 (h : Laxer Q mode mode') (a b : Int32) :
    (Dlhn.addI32 mode a b = none ∧ Q .overflow) ∨ Dlhn.addI32 mode a b = Dlhn.addI32 mode' a b := by
  obtain rfl | ⟨rfl, hq⟩ := h
  · exact .inr rfl
  · cases mode with
    | release => exact .inr rfl
    | debug => simp only [Dlhn.addI32]; split <;> simp [hq]

theorem Laxer.subI32 (h : Laxer Q mode mode') (a b : Int32) :
    (Dlhn.subI32 mode a b = none ∧ Q .overflow) ∨ Dlhn.subI32 mode a b = Dlhn.subI32 mode' a b := by
  obtain rfl | ⟨rfl, hq⟩ := h
  · exact .inr rfl
  · cases mode with
    | release => exact .inr rfl
    | debug => simp only [Dlhn.subI32]; split <;> simp [hq]

theorem Laxer.addU16 (h : Laxer Q mode mode') (a b : UInt16) :
    (Dlhn.addU16 mode a b = none ∧ Q .overflow) ∨ Dlhn.addU16 mode a b = Dlhn.addU16 mode' a b := by
  obtain rfl | ⟨rfl, hq⟩ := h
  · exact .inr rfl
  · cases mode with
    | release => exact .inr rfl
    | debug => simp only [Dlhn.addU16]; split <;> simp [hq]

theorem Laxer.subU16 (h : Laxer Q mode mode') (a b : UInt16) :
    (Dlhn.subU16 mode a b = none ∧ Q .overflow) ∨ Dlhn.subU16 mode a b = Dlhn.subU16 mode' a b := by
  obtain rfl | ⟨rfl, hq⟩ := h
  · exact .inr rfl
  · cases mode with
    | release => exact .inr rfl
    | debug => simp only [Dlhn.subU16]; split <;> simp [hq]

theorem Laxer.normalized (h : Laxer Q mode mode') (v : Num.Decimal) :
    (v.normalized mode = none ∧ Q .overflow) ∨ v.normalized mode = v.normalized mode' := by
  obtain rfl | ⟨rfl, hq⟩ := h
  · exact .inr rfl
  · cases mode with
    | release => exact .inr rfl
    | debug =>
      simp only [Num.Decimal.normalized, Num.subI64]
      split
      · exact .inr rfl
      · split <;> simp_all

theorem Laxer.dateDe {R : Nat → Nat → Prop} (hR : ∀ n, R n n) (h : Laxer Q mode mode') :
    Guards Q R (Date.de mode) (Date.de mode') := by
  refine (Guards.refl hR De.deI32).bind fun y => ?_
  rcases h.addI32 y DATE_YEAR_OFFSET with ⟨hn, hq⟩ | he
  · simp only [hn]; exact .stop _ hq _
  · simp only [he]
    split
    · exact .done _
    · refine (Guards.refl hR De.deU16).bind fun o => ?_
      rcases h.addU16 o DATE_ORDINAL_OFFSET with ⟨hn, hq⟩ | he
      · simp only [hn]; exact .stop _ hq _
      · simp only [he]; exact .refl hR _

theorem Laxer.deDate {R : Nat → Nat → Prop} (hR : ∀ n, R n n) (h : Laxer Q mode mode') :
    Guards Q R (Format.deDate mode) (Format.deDate mode') := by
  refine (Guards.refl hR De.deI32).bind fun y => ?_
  rcases h.addI32 y 2000 with ⟨hn, hq⟩ | he
  · simp only [hn]; exact .stop _ hq _
  · simp only [he]
    split
    · exact .done _
    · refine (Guards.refl hR De.deU16).bind fun o => ?_
      rcases h.addU16 o 1 with ⟨hn, hq⟩ | he
      · simp only [hn]; exact .stop _ hq _
      · simp only [he]; exact .refl hR _

theorem Laxer.dateSer (h : Laxer Q mode mode') (d : Date) :
    WGuards Q (d.ser mode) (d.ser mode') := by
  simp only [Date.ser]
  rcases h.subI32 d.year DATE_YEAR_OFFSET with ⟨hn, hq⟩ | he
  · rw [hn]; exact .stop _ hq _
  · rw [he]
    split
    · exact .done _
    · refine (WGuards.refl _).andThen ?_
      rcases h.subU16 d.ordinal DATE_ORDINAL_OFFSET with ⟨hn, hq⟩ | he
      · rw [hn]; exact .stop _ hq _
      · rw [he]; exact .refl _

theorem Laxer.serDate (h : Laxer Q mode mode') (d : Time.Date) :
    WGuards Q (Format.serDate mode d) (Format.serDate mode' d) := by
  simp only [Format.serDate]
  rcases h.subI32 d.year 2000 with ⟨hn, hq⟩ | he
  · rw [hn]; exact .stop _ hq _
  · rw [he]
    split
    · exact .done _
    · refine (WGuards.refl _).andThen ?_
      rcases h.subU16 d.ordinal 1 with ⟨hn, hq⟩ | he
      · rw [hn]; exact .stop _ hq _
      · rw [he]; exact .refl _

theorem Laxer.serBigDecimal (h : Laxer Q mode mode') (v : Num.Decimal) :
    WGuards Q (Format.serBigDecimal mode v) (Format.serBigDecimal mode' v) := by
  simp only [Format.serBigDecimal]
  refine (WGuards.refl _).andThen ?_
  split
  · exact .refl _
  · rcases h.normalized v with ⟨hn, hq⟩ | he
    · rw [hn]; exact .stop _ hq _
    · rw [he]; exact .refl _

mutual
theorem Laxer.bodySer (h : Laxer Q mode mode') : (b : Body) → WGuards Q (b.ser mode) (b.ser mode')
  | .unit | .none | .boolean _ | .uint8 _ | .uint16 _ | .uint32 _ | .uint64 _ | .int8 _
  | .int16 _ | .int32 _ | .int64 _ | .float32 _ | .float64 _ | .bigUInt _ | .bigInt _
  | .bigDecimal _ | .string _ | .binary _ | .dateTime _ => by
    simp only [Body.ser]; exact .refl _
  | .some b => by simp only [Body.ser]; exact (WGuards.refl _).andThen (h.bodySer b)
  | .array bs => by simp only [Body.ser]; exact (WGuards.refl _).andThen (h.bodySerAll bs)
  | .tuple bs => by simp only [Body.ser]; exact h.bodySerAll bs
  | .map es => by simp only [Body.ser]; exact (WGuards.refl _).andThen (h.bodySerEntries es)
  | .enum _ b => by simp only [Body.ser]; exact (WGuards.refl _).andThen (h.bodySer b)
  | .date d => by simp only [Body.ser]; exact h.dateSer d
theorem Laxer.bodySerAll (h : Laxer Q mode mode') :
    (bs : List Body) → WGuards Q (Body.serAll mode bs) (Body.serAll mode' bs)
  | [] => by simp only [Body.serAll]; exact .refl _
  | b :: bs => by simp only [Body.serAll]; exact (h.bodySer b).andThen (h.bodySerAll bs)
theorem Laxer.bodySerEntries (h : Laxer Q mode mode') :
    (es : List (String × Body)) → WGuards Q (Body.serEntries mode es) (Body.serEntries mode' es)
  | [] => by simp only [Body.serEntries]; exact .refl _
  | (_, b) :: es => by
    simp only [Body.serEntries]
    exact (WGuards.refl _).andThen ((h.bodySer b).andThen (h.bodySerEntries es))
end

theorem WGuards.serSeq {α : Type} {f f' : α → WProg SerErr} (h : ∀ a, WGuards Q (f a) (f' a))
    (vs : List α) : WGuards Q (Derive.serSeq f vs) (Derive.serSeq f' vs) := by
  induction vs with
  | nil => exact .done _
  | cons v vs ih => exact (h v).andThen ih

theorem WGuards.serMap {α : Type} {f f' : α → WProg SerErr} (h : ∀ a, WGuards Q (f a) (f' a))
    (es : List (String × α)) : WGuards Q (Derive.serMap f es) (Derive.serMap f' es) := by
  induction es with
  | nil => exact .done _
  | cons e es ih => exact (WGuards.refl _).andThen ((h e.2).andThen ih)

mutual
theorem Laxer.derivedSer (h : Laxer Q mode mode') : (T : RTy) → (v : Derive.Carrier T) →
    WGuards Q (Derive.ser mode T v) (Derive.ser mode' T v)
  | .unit, _ | .bool, _ | .u8, _ | .u16, _ | .u32, _ | .u64, _ | .i8, _ | .i16, _ | .i32, _
  | .i64, _ | .f32, _ | .f64, _ | .bigUint, _ | .numBigUint, _ | .bigInt, _ | .numBigInt, _
  | .bigDecimal, _ | .str, _ | .string, _ | .bytes, _ | .byteBuf, _ | .dateTime, _
  | .offsetDateTime, _ | .foreign, _ => by simp only [Derive.ser]; exact .refl _
  | .option _, none => by simp only [Derive.ser]; exact .refl _
  | .option T, some v => by
    simp only [Derive.ser]; exact (WGuards.refl _).andThen (h.derivedSer T v)
  | .numBigDecimal, v => by simp only [Derive.ser]; exact h.serBigDecimal v
  | .vec T, vs => by
    simp only [Derive.ser]
    exact (WGuards.refl _).andThen (WGuards.serSeq (fun v => h.derivedSer T v) vs)
  | .date, v => by simp only [Derive.ser]; exact h.dateSer v
  | .timeDate, v => by simp only [Derive.ser]; exact h.serDate v
  | .btreeMap T, es => by
    simp only [Derive.ser]
    exact (WGuards.refl _).andThen (WGuards.serMap (fun v => h.derivedSer T v) es)
  | .hashMap T, es => by
    simp only [Derive.ser]
    exact (WGuards.refl _).andThen (WGuards.serMap (fun v => h.derivedSer T v) es)
  | .tuple Ts, vs => by simp only [Derive.ser]; exact h.derivedSerTuple Ts vs
  | .struct _ (.named fs), vs => by simp only [Derive.ser]; exact h.derivedSerFields fs vs
  | .struct _ (.unnamed []), _ => by simp only [Derive.ser]; exact .refl _
  | .struct _ (.unnamed [.mk _ _ T]), vs => by
    simp only [Derive.ser]; exact h.derivedSer T vs.1
  | .struct _ (.unnamed (f :: g :: fs)), vs => by
    simp only [Derive.ser]; exact h.derivedSerFields (f :: g :: fs) vs
  | .struct _ .unit, _ => by simp only [Derive.ser]; exact .refl _
  | .enum _ vs, v => by simp only [Derive.ser]; exact h.derivedSerVariant _ _ vs v
theorem Laxer.derivedSerTuple (h : Laxer Q mode mode') : (Ts : List RTy) →
    (vs : Derive.TupleCarrier Ts) →
    WGuards Q (Derive.serTuple mode Ts vs) (Derive.serTuple mode' Ts vs)
  | [], _ => by simp only [Derive.serTuple]; exact .refl _
  | T :: Ts, (v, vs) => by
    simp only [Derive.serTuple]; exact (h.derivedSer T v).andThen (h.derivedSerTuple Ts vs)
theorem Laxer.derivedSerFields (h : Laxer Q mode mode') : (fs : List RField) →
    (vs : Derive.FieldCarrier fs) →
    WGuards Q (Derive.serFields mode fs vs) (Derive.serFields mode' fs vs)
  | [], _ => by simp only [Derive.serFields]; exact .refl _
  | .mk attrs _ T :: fs, (v, vs) => by
    simp only [Derive.serFields]
    split
    · exact h.derivedSerFields fs vs
    · exact (h.derivedSer T v).andThen (h.derivedSerFields fs vs)
theorem Laxer.derivedSerVariant (h : Laxer Q mode mode') (name : String) (i : Nat) :
    (vs : List RVariant) → (v : Derive.VariantsCarrier vs) →
    WGuards Q (Derive.serVariant mode name i vs v) (Derive.serVariant mode' name i vs v)
  | .mk attrs vn (.named fs) :: _, .inl v => by
    simp only [Derive.serVariant]
    split
    · exact .refl _
    · exact (WGuards.refl _).andThen (h.derivedSerFields fs v)
  | .mk attrs vn (.unnamed fs) :: _, .inl v => by
    simp only [Derive.serVariant]
    split
    · exact .refl _
    · exact (WGuards.refl _).andThen (h.derivedSerFields fs v)
  | .mk attrs vn .unit :: _, .inl v => by
    simp only [Derive.serVariant]; exact .refl _
  | .mk _ _ _ :: vs, .inr v => by
    simp only [Derive.serVariant]; exact h.derivedSerVariant name (i + 1) vs v
end

end

/-! ## Decoders on two machines -/

theorem asUsize_ptr {t t' : Target} (h : t.ptr = t'.ptr) (x : UInt64) :
    t.asUsize x = t'.asUsize x := by simp only [Target.asUsize, h]

section
variable {Q : PanicKind → Prop} {R : Nat → Nat → Prop} {t t' : Target}

theorem Guards.deString (hR : ∀ n, R n n) (h : t.ptr = t'.ptr) :
    Guards Q R (De.deString t) (De.deString t') := by
  have : De.deString t = De.deString t' := by
    unfold De.deString; simp only [asUsize_ptr h]
  rw [this]; exact .refl hR _

theorem Guards.deChar (hR : ∀ n, R n n) (h : t.ptr = t'.ptr) :
    Guards Q R (De.deChar t) (De.deChar t') :=
  (Guards.deString hR h).bind fun _ => .refl hR _

theorem Guards.deByteBuf (hR : ∀ n, R n n) (h : t.ptr = t'.ptr) :
    Guards Q R (De.deByteBuf t) (De.deByteBuf t') := by
  have : De.deByteBuf t = De.deByteBuf t' := by
    unfold De.deByteBuf; simp only [asUsize_ptr h]
  rw [this]; exact .refl hR _

theorem Guards.deVecU8 (hR : ∀ n, R n n) (h : t.ptr = t'.ptr) :
    Guards Q R (De.deVecU8 t) (De.deVecU8 t') := by
  have : De.deVecU8 t = De.deVecU8 t' := by
    unfold De.deVecU8; simp only [asUsize_ptr h]
  rw [this]; exact .refl hR _

theorem Guards.insertLoop {α : Type} (hR : ∀ n, R n n) (h : t.ptr = t'.ptr)
    {p p' : Prog DeErr α} (hp : Guards Q R p p') (n : Nat) (buf : List (String × α)) :
    Guards Q R (Body.insertLoop t p n buf) (Body.insertLoop t' p' n buf) := by
  induction n generalizing buf with
  | zero => exact .done _
  | succ n ih => exact (Guards.deString hR h).bind fun _ => hp.bind fun _ => ih _

theorem Guards.deEntries {α : Type} (hR : ∀ n, R n n) (h : t.ptr = t'.ptr)
    {p p' : Prog DeErr α} (hp : Guards Q R p p') (n : Nat) :
    Guards Q R (Derive.deEntries t p n) (Derive.deEntries t' p' n) := by
  induction n with
  | zero => exact .done _
  | succ n ih =>
    exact (Guards.deString hR h).bind fun _ => hp.bind fun _ => ih.bind fun _ => .done _

/-! ### Typed -/

mutual
theorem Guards.de (hR : ∀ n, R n n) (h : t.ptr = t'.ptr) : (ty : Ty) →
    Guards Q R (De.de t ty) (De.de t' ty)
  | .bool | .i8 | .i16 | .i32 | .i64 | .i128 | .u8 | .u16 | .u32 | .u64 | .u128 | .f32 | .f64
  | .any | .str | .bytes | .ignoredAny | .unit | .unitStruct _ => by
    simp only [De.de]; exact .refl hR _
  | .char => by simp only [De.de]; exact (Guards.deChar hR h).bind fun _ => .done _
  | .string => by simp only [De.de]; exact (Guards.deString hR h).bind fun _ => .done _
  | .byteBuf => by simp only [De.de]; exact (Guards.deByteBuf hR h).bind fun _ => .done _
  | .option ty => by
    simp only [De.de]
    refine (Guards.refl hR _).bind fun b => ?_
    split
    · exact (Guards.de hR h ty).bind fun _ => .done _
    · exact .done _
  | .newtypeStruct _ ty => by simp only [De.de]; exact (Guards.de hR h ty).bind fun _ => .done _
  | .seq ty => by
    simp only [De.de, asUsize_ptr h]
    exact (Guards.refl hR _).bind fun _ => ((Guards.de hR h ty).times _).bind fun _ => .done _
  | .tuple ts => by simp only [De.de]; exact (Guards.deAll hR h ts).bind fun _ => .done _
  | .tupleStruct _ ts => by simp only [De.de]; exact (Guards.deAll hR h ts).bind fun _ => .done _
  | .map kt vt => by
    simp only [De.de, asUsize_ptr h]
    exact (Guards.refl hR _).bind fun _ => (Guards.times ((Guards.de hR h kt).bind fun _ =>
      (Guards.de hR h vt).bind fun _ => .done _) _).bind fun _ => .done _
  | .struct _ fs => by simp only [De.de]; exact (Guards.deFields hR h fs).bind fun _ => .done _
  | .enum _ vs => by
    simp only [De.de]
    exact (Guards.refl hR _).bind fun _ => Guards.deVariant hR h _ _ _ vs
theorem Guards.deAll (hR : ∀ n, R n n) (h : t.ptr = t'.ptr) : (ts : List Ty) →
    Guards Q R (De.deAll t ts) (De.deAll t' ts)
  | [] => by simp only [De.deAll]; exact .done _
  | ty :: ts => by
    simp only [De.deAll]
    exact (Guards.de hR h ty).bind fun _ => (Guards.deAll hR h ts).bind fun _ => .done _
theorem Guards.deFields (hR : ∀ n, R n n) (h : t.ptr = t'.ptr) : (fs : List (String × Ty)) →
    Guards Q R (De.deFields t fs) (De.deFields t' fs)
  | [] => by simp only [De.deFields]; exact .done _
  | (_, ty) :: fs => by
    simp only [De.deFields]
    exact (Guards.de hR h ty).bind fun _ => (Guards.deFields hR h fs).bind fun _ => .done _
theorem Guards.deVariant (hR : ∀ n, R n n) (h : t.ptr = t'.ptr) (name : String) (i : UInt16) :
    (n : Nat) → (vs : List (String × VTy)) →
    Guards Q R (De.deVariant t name i n vs) (De.deVariant t' name i n vs)
  | _, [] => by simp only [De.deVariant]; exact .done _
  | n + 1, _ :: vs => by simp only [De.deVariant]; exact Guards.deVariant hR h name i n vs
  | 0, (_, vt) :: _ => by simp only [De.deVariant]; exact Guards.dePayload hR h _ _ _ vt
theorem Guards.dePayload (hR : ∀ n, R n n) (h : t.ptr = t'.ptr) (name : String) (i : UInt32)
    (vn : String) : (vt : VTy) →
    Guards Q R (De.dePayload t name i vn vt) (De.dePayload t' name i vn vt)
  | .unit => by simp only [De.dePayload]; exact .done _
  | .newtype ty => by simp only [De.dePayload]; exact (Guards.de hR h ty).bind fun _ => .done _
  | .tuple ts => by simp only [De.dePayload]; exact (Guards.deAll hR h ts).bind fun _ => .done _
  | .struct fs => by
    simp only [De.dePayload]; exact (Guards.deFields hR h fs).bind fun _ => .done _
end

/-! ### Implementations of `Deserialize` -/

mutual
theorem Guards.impl (hR : ∀ n, R n n) (h : t.ptr = t'.ptr) : {α : Type} → (i : Impl α) →
    Guards Q R (i.run t) (i.run t')
  | _, .ok _ | _, .error _ | _, .any | _, .str | _, .bytes | _, .ignoredAny | _, .bool | _, .i8
  | _, .i16 | _, .i32 | _, .i64 | _, .i128 | _, .u128 | _, .u8 | _, .u16 | _, .u32 | _, .u64
  | _, .f32 | _, .f64 | _, .identifier | _, .unit | _, .unitStruct _ => by
    simp only [Impl.run]; exact .refl hR _
  | _, .char => by simp only [Impl.run]; exact Guards.deChar hR h
  | _, .string => by simp only [Impl.run]; exact Guards.deString hR h
  | _, .byteBuf => by simp only [Impl.run]; exact Guards.deByteBuf hR h
  | _, .andThen p k => by
    simp only [Impl.run]; exact (Guards.impl hR h p).bind fun b => Guards.impl hR h (k b)
  | _, .humanReadable k => by simp only [Impl.run]; exact Guards.impl hR h (k false)
  | _, .option onNone onSome => by
    simp only [Impl.run]
    refine (Guards.refl hR _).bind fun b => ?_
    split
    · exact Guards.impl hR h onSome
    · exact Guards.impl hR h onNone
  | _, .newtypeStruct _ visit => by simp only [Impl.run]; exact Guards.impl hR h visit
  | _, .seq visit => by
    simp only [Impl.run, asUsize_ptr h]
    exact (Guards.refl hR _).bind fun _ => Guards.seqImpl hR h (visit _) _
  | _, .tuple len visit => by simp only [Impl.run]; exact Guards.seqImpl hR h (visit len) len
  | _, .tupleStruct _ len visit => by
    simp only [Impl.run]; exact Guards.seqImpl hR h (visit len) len
  | _, .map visit => by
    simp only [Impl.run, asUsize_ptr h]
    exact (Guards.refl hR _).bind fun _ => Guards.mapImpl hR h (visit _) _
  | _, .struct _ fields visit => by simp only [Impl.run]; exact Guards.fieldsImpl hR h visit fields
  | _, .enum _ _ seed visit => by
    simp only [Impl.run]
    exact (Guards.impl hR h seed).bind fun b => Guards.variantImpl hR h (visit b)
theorem Guards.seqImpl (hR : ∀ n, R n n) (h : t.ptr = t'.ptr) : {α : Type} → (i : SeqImpl α) →
    (count : Nat) → Guards Q R (i.run t count) (i.run t' count)
  | _, .ok _, _ | _, .error _, _ => by simp only [SeqImpl.run]; exact .refl hR _
  | _, .next seed k, count => by
    simp only [SeqImpl.run]
    split
    · exact (Guards.impl hR h seed).bind fun b => Guards.seqImpl hR h (k (some b)) _
    · exact Guards.seqImpl hR h (k none) _
theorem Guards.mapImpl (hR : ∀ n, R n n) (h : t.ptr = t'.ptr) : {α : Type} → (i : MapImpl α) →
    (count : Nat) → Guards Q R (i.run t count) (i.run t' count)
  | _, .ok _, _ | _, .error _, _ => by simp only [MapImpl.run]; exact .refl hR _
  | _, .key seed k, count => by
    simp only [MapImpl.run]
    split
    · exact (Guards.impl hR h seed).bind fun b => Guards.mapImpl hR h (k (some b)) _
    · exact Guards.mapImpl hR h (k none) _
  | _, .value seed k, count => by
    simp only [MapImpl.run]
    exact (Guards.impl hR h seed).bind fun b => Guards.mapImpl hR h (k b) _
theorem Guards.fieldsImpl (hR : ∀ n, R n n) (h : t.ptr = t'.ptr) : {α : Type} →
    (i : FieldsImpl α) → (keys : List String) → Guards Q R (i.run t keys) (i.run t' keys)
  | _, .ok _, _ | _, .error _, _ => by simp only [FieldsImpl.run]; exact .refl hR _
  | _, .key k, name :: keys => by
    simp only [FieldsImpl.run]; exact Guards.fieldsImpl hR h (k (some name)) keys
  | _, .key k, [] => by simp only [FieldsImpl.run]; exact Guards.fieldsImpl hR h (k none) []
  | _, .value seed k, keys => by
    simp only [FieldsImpl.run]
    exact (Guards.impl hR h seed).bind fun b => Guards.fieldsImpl hR h (k b) keys
theorem Guards.variantImpl (hR : ∀ n, R n n) (h : t.ptr = t'.ptr) : {α : Type} →
    (i : VariantImpl α) → Guards Q R (i.run t) (i.run t')
  | _, .ok _ | _, .error _ | _, .unit _ => by simp only [VariantImpl.run]; exact .refl hR _
  | _, .newtype seed k => by
    simp only [VariantImpl.run]; exact (Guards.impl hR h seed).bind fun _ => .refl hR _
  | _, .tuple len visit k => by
    simp only [VariantImpl.run]
    exact (Guards.seqImpl hR h (visit len) len).bind fun _ => .refl hR _
  | _, .struct fields visit k => by
    simp only [VariantImpl.run]
    exact (Guards.fieldsImpl hR h visit fields).bind fun _ => .refl hR _
end

/-! ### Dynamic values -/

variable {mode mode' : BuildMode} {size size' : Nat}

mutual
theorem Guards.bodyDe (hR : ∀ n, R n n) (h : t.ptr = t'.ptr) (hm : Laxer Q mode mode')
    (hs : ∀ k, R (k * size) (k * size')) : (hd : Header) →
    Guards Q R (Body.de t mode size hd) (Body.de t' mode' size' hd)
  | .unit | .boolean | .uint8 | .uint16 | .uint32 | .uint64 | .int8 | .int16 | .int32 | .int64
  | .float32 | .float64 | .dateTime => by simp only [Body.de]; exact .refl hR _
  | .optional inner => by
    simp only [Body.de]
    refine (Guards.refl hR _).bind fun b => ?_
    split
    · exact (Guards.bodyDe hR h hm hs inner).bind fun _ => .done _
    · exact .done _
  | .bigUInt => by
    simp only [Body.de, BigUint.de]
    exact ((Guards.deVecU8 hR h).bind fun _ => .done _).bind fun _ => .done _
  | .bigInt => by
    simp only [Body.de, BigInt.de]
    exact ((Guards.deVecU8 hR h).bind fun _ => .done _).bind fun _ => .done _
  | .bigDecimal => by
    simp only [Body.de, BigDecimal.de]
    exact ((Guards.deVecU8 hR h).bind fun _ => .refl hR _).bind fun _ => .done _
  | .string => by simp only [Body.de]; exact (Guards.deString hR h).bind fun _ => .done _
  | .binary => by simp only [Body.de]; exact (Guards.deByteBuf hR h).bind fun _ => .done _
  | .array inner => by
    simp only [Body.de, asUsize_ptr h]
    exact (Guards.refl hR _).bind fun _ => .alloc _ _ (hs _) _ _
      (((Guards.bodyDe hR h hm hs inner).times _).bind fun _ => .done _)
  | .tuple inner => by
    simp only [Body.de]
    exact .alloc _ _ (hs _) _ _ ((Guards.bodyDeAll hR h hm hs inner).bind fun _ => .done _)
  | .map inner => by
    simp only [Body.de]
    exact (Guards.refl hR _).bind fun _ =>
      (Guards.insertLoop hR h (Guards.bodyDe hR h hm hs inner) _ _).bind fun _ => .done _
  | .enum inner => by
    simp only [Body.de]
    exact (Guards.refl hR _).bind fun _ =>
      (Guards.bodyDeNth hR h hm hs _ inner).bind fun _ => .done _
  | .date => by simp only [Body.de]; exact (hm.dateDe hR).bind fun _ => .done _
theorem Guards.bodyDeAll (hR : ∀ n, R n n) (h : t.ptr = t'.ptr) (hm : Laxer Q mode mode')
    (hs : ∀ k, R (k * size) (k * size')) : (hds : List Header) →
    Guards Q R (Body.deAll t mode size hds) (Body.deAll t' mode' size' hds)
  | [] => by simp only [Body.deAll]; exact .done _
  | hd :: hds => by
    simp only [Body.deAll]
    exact (Guards.bodyDe hR h hm hs hd).bind fun _ =>
      (Guards.bodyDeAll hR h hm hs hds).bind fun _ => .done _
theorem Guards.bodyDeNth (hR : ∀ n, R n n) (h : t.ptr = t'.ptr) (hm : Laxer Q mode mode')
    (hs : ∀ k, R (k * size) (k * size')) : (n : Nat) → (hds : List Header) →
    Guards Q R (Body.deNth t mode size n hds) (Body.deNth t' mode' size' n hds)
  | _, [] => by simp only [Body.deNth]; exact .done _
  | 0, hd :: _ => by simp only [Body.deNth]; exact Guards.bodyDe hR h hm hs hd
  | n + 1, _ :: hds => by simp only [Body.deNth]; exact Guards.bodyDeNth hR h hm hs n hds
end

theorem Guards.eachDe {f f' : Header → Prog DeErr Body} (hf : ∀ hd, Guards Q R (f hd) (f' hd))
    (hds : List Header) : Guards Q R (Body.eachDe f hds) (Body.eachDe f' hds) := by
  induction hds with
  | nil => exact .done _
  | cons hd hds ih => exact (hf hd).bind fun _ => ih.bind fun _ => .done _

/-- The same with stacks of bounded size. -/
theorem Guards.bodyDeOn (hR : ∀ n, R n n) (h : t.ptr = t'.ptr) (hm : Laxer Q mode mode')
    (hs : ∀ k, R (k * size) (k * size')) (stack stack' : Nat) (hle : stack ≤ stack')
    (hq : stack = stack' ∨ Q .stackOverflow) (hd : Header) :
    Guards Q R (Body.deOn t mode size stack hd) (Body.deOn t' mode' size' stack' hd) := by
  induction stack generalizing stack' hd with
  | zero =>
    rcases hq with rfl | hq
    · simp only [Body.deOn]; exact .done _
    · simp only [Body.deOn]; exact .stop _ hq _
  | succ n ih =>
    obtain ⟨m, rfl⟩ : ∃ m, stack' = m + 1 := ⟨stack' - 1, by omega⟩
    have ih := ih m (by omega) (hq.imp (by omega) id)
    cases hd <;> try (simp only [Body.deOn]; exact Guards.bodyDe hR h hm hs _)
    · simp only [Body.deOn]
      refine (Guards.refl hR _).bind fun b => ?_
      split
      · exact (ih _).bind fun _ => .done _
      · exact .done _
    · simp only [Body.deOn, asUsize_ptr h]
      exact (Guards.refl hR _).bind fun _ => .alloc _ _ (hs _) _ _
        (((ih _).times _).bind fun _ => .done _)
    · simp only [Body.deOn]
      exact .alloc _ _ (hs _) _ _ ((Guards.eachDe ih _).bind fun _ => .done _)
    · simp only [Body.deOn]
      exact (Guards.refl hR _).bind fun _ =>
        (Guards.insertLoop hR h (ih _) _ _).bind fun _ => .done _
    · simp only [Body.deOn]
      refine (Guards.refl hR _).bind fun i => ?_
      split
      · exact .done _
      · exact (ih _).bind fun _ => .done _

/-! ### Headers -/

theorem Guards.header (hR : ∀ n, R n n) (hs : ∀ k, R (k * size) (k * size')) (stack stack' : Nat)
    (hle : stack ≤ stack') (hq : stack = stack' ∨ Q .stackOverflow) :
    Guards Q R (Header.deserialize size stack) (Header.deserialize size' stack') := by
  induction stack generalizing stack' with
  | zero =>
    rcases hq with rfl | hq
    · simp only [Header.deserialize]; exact .done _
    · simp only [Header.deserialize]; exact .stop _ hq _
  | succ n ih =>
    obtain ⟨m, rfl⟩ : ∃ m, stack' = m + 1 := ⟨stack' - 1, by omega⟩
    have ih := ih m (by omega) (hq.imp (by omega) id)
    simp only [Header.deserialize]
    refine .readExact _ _ _ _ fun v => ?_
    repeat' refine Guards.ite ?_ ?_
    all_goals first
      | exact .done _
      | exact ih.bind fun _ => .done _
      | exact Guards.bind' (Guards.refl hR _) fun (n : UInt16) => .alloc _ _ (hs n.toNat) _ _
          ((ih.replicateM n.toNat).bind' fun _ => .done _)

/-! ### Derived types -/

variable {env : Derive.Env}

mutual
theorem Guards.deTy (hR : ∀ n, R n n) (h : t.ptr = t'.ptr) (hm : Laxer Q mode mode') :
    (T : RTy) → Guards Q R (Derive.deTy t mode env T) (Derive.deTy t' mode' env T)
  | .unit | .bool | .u8 | .u16 | .u32 | .u64 | .i8 | .i16 | .i32 | .i64 | .f32 | .f64 | .str
  | .bytes | .dateTime | .offsetDateTime | .union _ | .foreign => by
    simp only [Derive.deTy]; exact .refl hR _
  | .option T => by
    simp only [Derive.deTy]
    refine (Guards.refl hR _).bind fun b => ?_
    split
    · exact (Guards.deTy hR h hm T).bind fun _ => .done _
    · exact .done _
  | .bigUint => by simp only [Derive.deTy]; exact (Guards.deVecU8 hR h).bind fun _ => .done _
  | .numBigUint => by simp only [Derive.deTy]; exact (Guards.deVecU8 hR h).bind fun _ => .done _
  | .bigInt => by simp only [Derive.deTy]; exact (Guards.deVecU8 hR h).bind fun _ => .done _
  | .numBigInt => by simp only [Derive.deTy]; exact (Guards.deVecU8 hR h).bind fun _ => .done _
  | .bigDecimal => by
    simp only [Derive.deTy]; exact (Guards.deVecU8 hR h).bind fun _ => .refl hR _
  | .numBigDecimal => by
    simp only [Derive.deTy]; exact (Guards.deVecU8 hR h).bind fun _ => .refl hR _
  | .string => by simp only [Derive.deTy]; exact Guards.deString hR h
  | .byteBuf => by simp only [Derive.deTy]; exact Guards.deByteBuf hR h
  | .vec T => by
    simp only [Derive.deTy, asUsize_ptr h]
    exact (Guards.refl hR _).bind fun _ => (Guards.deTy hR h hm T).times _
  | .date => by simp only [Derive.deTy]; exact hm.dateDe hR
  | .timeDate => by simp only [Derive.deTy]; exact hm.deDate hR
  | .btreeMap T => by
    simp only [Derive.deTy, asUsize_ptr h]
    exact (Guards.refl hR _).bind fun _ =>
      (Guards.deEntries hR h (Guards.deTy hR h hm T) _).bind fun _ => .done _
  | .hashMap T => by
    simp only [Derive.deTy, asUsize_ptr h]
    exact (Guards.refl hR _).bind fun _ =>
      (Guards.deEntries hR h (Guards.deTy hR h hm T) _).bind fun _ => .done _
  | .tuple Ts => by simp only [Derive.deTy]; exact Guards.deTyTuple hR h hm Ts
  | .struct _ (.named fs) => by simp only [Derive.deTy]; exact Guards.deTyFields hR h hm fs
  | .struct _ (.unnamed []) => by simp only [Derive.deTy]; exact .done _
  | .struct _ (.unnamed [.mk _ _ T]) => by
    simp only [Derive.deTy]; exact (Guards.deTy hR h hm T).bind fun _ => .done _
  | .struct _ (.unnamed (f :: g :: fs)) => by
    simp only [Derive.deTy]; exact Guards.deTyFields hR h hm (f :: g :: fs)
  | .struct _ .unit => by simp only [Derive.deTy]; exact .done _
  | .enum _ vs => by
    simp only [Derive.deTy]
    exact (Guards.refl hR _).bind fun _ => Guards.deTyVariant hR h hm _ vs
theorem Guards.deTyTuple (hR : ∀ n, R n n) (h : t.ptr = t'.ptr) (hm : Laxer Q mode mode') :
    (Ts : List RTy) → Guards Q R (Derive.deTuple t mode env Ts) (Derive.deTuple t' mode' env Ts)
  | [] => by simp only [Derive.deTuple]; exact .done _
  | T :: Ts => by
    simp only [Derive.deTuple]
    exact (Guards.deTy hR h hm T).bind fun _ => (Guards.deTyTuple hR h hm Ts).bind fun _ => .done _
theorem Guards.deTyFields (hR : ∀ n, R n n) (h : t.ptr = t'.ptr) (hm : Laxer Q mode mode') :
    (fs : List RField) →
    Guards Q R (Derive.deFields t mode env fs) (Derive.deFields t' mode' env fs)
  | [] => by simp only [Derive.deFields]; exact .done _
  | .mk attrs _ T :: fs => by
    simp only [Derive.deFields]
    split
    · split
      · exact (Guards.deTyFields hR h hm fs).bind fun _ => .done _
      · exact .done _
    · exact (Guards.deTy hR h hm T).bind fun _ =>
        (Guards.deTyFields hR h hm fs).bind fun _ => .done _
theorem Guards.deTyVariant {idx : Nat} (hR : ∀ n, R n n) (h : t.ptr = t'.ptr) (hm : Laxer Q mode mode') :
    (n : Nat) → (vs : List RVariant) →
    Guards Q R (Derive.deVariant t mode env idx n vs) (Derive.deVariant t' mode' env idx n vs)
  | _, [] => by simp only [Derive.deVariant]; exact .done _
  | 0, .mk attrs _ fields :: vs => by
    simp only [Derive.deVariant]
    split
    · exact (Guards.deTyVariant hR h hm 0 vs).bind fun _ => .done _
    · exact (Guards.deTyPayload hR h hm fields).bind fun _ => .done _
  | n + 1, .mk attrs _ fields :: vs => by
    simp only [Derive.deVariant]
    split
    · exact (Guards.deTyVariant hR h hm (n + 1) vs).bind fun _ => .done _
    · exact (Guards.deTyVariant hR h hm n vs).bind fun _ => .done _
theorem Guards.deTyPayload (hR : ∀ n, R n n) (h : t.ptr = t'.ptr) (hm : Laxer Q mode mode') :
    (fields : RFields) →
    Guards Q R (Derive.dePayload t mode env fields) (Derive.dePayload t' mode' env fields)
  | .named fs => by simp only [Derive.dePayload]; exact Guards.deTyFields hR h hm fs
  | .unnamed fs => by simp only [Derive.dePayload]; exact Guards.deTyFields hR h hm fs
  | .unit => by simp only [Derive.dePayload]; exact .done _
end

/-! ### Recursive types -/

mutual
theorem Guards.recBody (hR : ∀ n, R n n) (h : t.ptr = t'.ptr)
    {call call' : String → Prog DeErr Val} (hc : ∀ n, Guards Q R (call n) (call' n)) :
    (T : Rec.RecTy) → Guards Q R (Rec.deBody t call T) (Rec.deBody t' call' T)
  | .leaf ty => by simp only [Rec.deBody]; exact Guards.de hR h ty
  | .named n => by simp only [Rec.deBody]; exact hc n
  | .option T => by
    simp only [Rec.deBody]
    refine (Guards.refl hR _).bind fun b => ?_
    split
    · exact (Guards.recBody hR h hc T).bind fun _ => .done _
    · exact .done _
  | .newtypeStruct _ T => by
    simp only [Rec.deBody]; exact (Guards.recBody hR h hc T).bind fun _ => .done _
  | .seq T => by
    simp only [Rec.deBody, asUsize_ptr h]
    exact (Guards.refl hR _).bind fun _ => ((Guards.recBody hR h hc T).times _).bind fun _ => .done _
  | .tuple Ts => by
    simp only [Rec.deBody]; exact (Guards.recAll hR h hc Ts).bind fun _ => .done _
  | .tupleStruct _ Ts => by
    simp only [Rec.deBody]; exact (Guards.recAll hR h hc Ts).bind fun _ => .done _
  | .map kt T => by
    simp only [Rec.deBody, asUsize_ptr h]
    exact (Guards.refl hR _).bind fun _ => (Guards.times ((Guards.de hR h kt).bind fun _ =>
      (Guards.recBody hR h hc T).bind fun _ => .done _) _).bind fun _ => .done _
  | .struct _ fs => by
    simp only [Rec.deBody]; exact (Guards.recFields hR h hc fs).bind fun _ => .done _
  | .enum _ vs => by
    simp only [Rec.deBody]
    exact (Guards.refl hR _).bind fun _ => Guards.recVariant hR h hc _ _ _ vs
theorem Guards.recAll (hR : ∀ n, R n n) (h : t.ptr = t'.ptr)
    {call call' : String → Prog DeErr Val} (hc : ∀ n, Guards Q R (call n) (call' n)) :
    (Ts : List Rec.RecTy) → Guards Q R (Rec.deAll t call Ts) (Rec.deAll t' call' Ts)
  | [] => by simp only [Rec.deAll]; exact .done _
  | T :: Ts => by
    simp only [Rec.deAll]
    exact (Guards.recBody hR h hc T).bind fun _ => (Guards.recAll hR h hc Ts).bind fun _ => .done _
theorem Guards.recFields (hR : ∀ n, R n n) (h : t.ptr = t'.ptr)
    {call call' : String → Prog DeErr Val} (hc : ∀ n, Guards Q R (call n) (call' n)) :
    (fs : List (String × Rec.RecTy)) → Guards Q R (Rec.deFields t call fs) (Rec.deFields t' call' fs)
  | [] => by simp only [Rec.deFields]; exact .done _
  | (_, T) :: fs => by
    simp only [Rec.deFields]
    exact (Guards.recBody hR h hc T).bind fun _ =>
      (Guards.recFields hR h hc fs).bind fun _ => .done _
theorem Guards.recVariant (hR : ∀ n, R n n) (h : t.ptr = t'.ptr)
    {call call' : String → Prog DeErr Val} (hc : ∀ n, Guards Q R (call n) (call' n))
    (name : String) (i : UInt16) : (n : Nat) → (vs : List (String × Rec.RecVTy)) →
    Guards Q R (Rec.deVariant t call name i n vs) (Rec.deVariant t' call' name i n vs)
  | _, [] => by simp only [Rec.deVariant]; exact .done _
  | n + 1, _ :: vs => by simp only [Rec.deVariant]; exact Guards.recVariant hR h hc name i n vs
  | 0, (_, vt) :: _ => by simp only [Rec.deVariant]; exact Guards.recPayload hR h hc _ _ _ vt
theorem Guards.recPayload (hR : ∀ n, R n n) (h : t.ptr = t'.ptr)
    {call call' : String → Prog DeErr Val} (hc : ∀ n, Guards Q R (call n) (call' n))
    (name : String) (i : UInt32) (vn : String) : (vt : Rec.RecVTy) →
    Guards Q R (Rec.dePayload t call name i vn vt) (Rec.dePayload t' call' name i vn vt)
  | .unit => by simp only [Rec.dePayload]; exact .done _
  | .newtype T => by
    simp only [Rec.dePayload]; exact (Guards.recBody hR h hc T).bind fun _ => .done _
  | .tuple Ts => by
    simp only [Rec.dePayload]; exact (Guards.recAll hR h hc Ts).bind fun _ => .done _
  | .struct fs => by
    simp only [Rec.dePayload]; exact (Guards.recFields hR h hc fs).bind fun _ => .done _
end

theorem Guards.recNamed (hR : ∀ n, R n n) (h : t.ptr = t'.ptr) (defs : Rec.Defs)
    (stack stack' : Nat) (hle : stack ≤ stack') (hq : stack = stack' ∨ Q .stackOverflow)
    (n : String) :
    Guards Q R (Rec.deNamed t defs stack n) (Rec.deNamed t' defs stack' n) := by
  induction stack generalizing stack' n with
  | zero =>
    rcases hq with rfl | hq
    · simp only [Rec.deNamed]; exact .done _
    · simp only [Rec.deNamed]; exact .stop _ hq _
  | succ k ih =>
    obtain ⟨m, rfl⟩ : ∃ m, stack' = m + 1 := ⟨stack' - 1, by omega⟩
    simp only [Rec.deNamed]
    exact Guards.recBody hR h (fun n => ih m (by omega) (hq.imp (by omega) id) n) _

theorem Guards.recTy (hR : ∀ n, R n n) (h : t.ptr = t'.ptr) (defs : Rec.Defs)
    (stack stack' : Nat) (hle : stack ≤ stack') (hq : stack = stack' ∨ Q .stackOverflow)
    (T : Rec.RecTy) :
    Guards Q R (Rec.deTy t defs stack T) (Rec.deTy t' defs stack' T) :=
  Guards.recBody hR h (fun n => Guards.recNamed hR h defs stack stack' hle hq n) T

/-! ### Encoders with a bounded stack -/

theorem WGuards.eachSer {f f' : Body → WProg SerErr} (h : ∀ b, WGuards Q (f b) (f' b))
    (bs : List Body) : WGuards Q (Body.eachSer f bs) (Body.eachSer f' bs) := by
  induction bs with
  | nil => exact .done _
  | cons b bs ih => exact (h b).andThen ih

theorem WGuards.eachEntry {f f' : Body → WProg SerErr} (h : ∀ b, WGuards Q (f b) (f' b))
    (es : List (String × Body)) : WGuards Q (Body.eachEntry f es) (Body.eachEntry f' es) := by
  induction es with
  | nil => exact .done _
  | cons e es ih => exact (WGuards.refl _).andThen ((h e.2).andThen ih)

theorem WGuards.bodySerOn (hm : Laxer Q mode mode') (stack stack' : Nat) (hle : stack ≤ stack')
    (hq : stack = stack' ∨ Q .stackOverflow) (b : Body) :
    WGuards Q (Body.serOn mode stack b) (Body.serOn mode' stack' b) := by
  induction stack generalizing stack' b with
  | zero =>
    rcases hq with rfl | hq
    · simp only [Body.serOn]; exact .done _
    · simp only [Body.serOn]; exact .stop _ hq _
  | succ n ih =>
    obtain ⟨m, rfl⟩ : ∃ m, stack' = m + 1 := ⟨stack' - 1, by omega⟩
    have ih := ih m (by omega) (hq.imp (by omega) id)
    cases b <;> try (simp only [Body.serOn]; exact hm.bodySer _)
    · simp only [Body.serOn]; exact (WGuards.refl _).andThen (ih _)
    · simp only [Body.serOn]; exact (WGuards.refl _).andThen (WGuards.eachSer ih _)
    · simp only [Body.serOn]; exact WGuards.eachSer ih _
    · simp only [Body.serOn]; exact (WGuards.refl _).andThen (WGuards.eachEntry ih _)
    · simp only [Body.serOn]; exact (WGuards.refl _).andThen (ih _)

theorem WGuards.eachSerialize {f f' : Header → WProg IoErr} (h : ∀ b, WGuards Q (f b) (f' b))
    (hds : List Header) : WGuards Q (Header.eachSerialize f hds) (Header.eachSerialize f' hds) := by
  induction hds with
  | nil => exact .done _
  | cons b bs ih => exact (h b).andThen ih

theorem WGuards.serializeOn (stack stack' : Nat) (hle : stack ≤ stack')
    (hq : stack = stack' ∨ Q .stackOverflow) (hd : Header) :
    WGuards Q (Header.serializeOn stack hd) (Header.serializeOn stack' hd) := by
  induction stack generalizing stack' hd with
  | zero =>
    rcases hq with rfl | hq
    · simp only [Header.serializeOn]; exact .done _
    · simp only [Header.serializeOn]; exact .stop _ hq _
  | succ n ih =>
    obtain ⟨m, rfl⟩ : ∃ m, stack' = m + 1 := ⟨stack' - 1, by omega⟩
    have ih := ih m (by omega) (hq.imp (by omega) id)
    cases hd <;> try (simp only [Header.serializeOn]; exact .refl _)
    · simp only [Header.serializeOn]; exact (WGuards.refl _).andThen (ih _)
    · simp only [Header.serializeOn]; exact (WGuards.refl _).andThen (ih _)
    · simp only [Header.serializeOn]
      exact (WGuards.refl _).andThen ((WGuards.refl _).andThen (WGuards.eachSerialize ih _))
    · simp only [Header.serializeOn]; exact (WGuards.refl _).andThen (ih _)
    · simp only [Header.serializeOn]
      exact (WGuards.refl _).andThen ((WGuards.refl _).andThen (WGuards.eachSerialize ih _))

end

/-! ### What the allocator of the better machine grants -/

theorem isizeMax_ptr {t t' : Target} (h : t.ptr = t'.ptr) : t.isizeMax = t'.isizeMax := by
  simp only [Target.isizeMax, h]

/-- More memory: only the allocator's refusal is lost. -/
theorem allocate_memory {Q : PanicKind → Prop} {t t' : Target} (hQ : Q .allocFailure)
    (h : t.ptr = t'.ptr) (hm : t.memLimit ≤ t'.memLimit) (n n' : Nat) (hn : n = n') :
    (∀ q, t.allocate n = some q → Q q ∨ t'.allocate n' = some q) ∧
      (t.allocate n = none → t'.allocate n' = none) := by
  subst hn
  have hi := isizeMax_ptr h
  unfold Target.allocate
  rw [hi]
  by_cases h1 : t'.isizeMax < n
  · simp [h1]
  · by_cases h2 : t.memLimit < n
    · simp only [if_neg h1, if_pos h2]
      exact ⟨fun q hq => .inl (by cases hq; exact hQ), fun h => by cases h⟩
    · simp only [if_neg h1, if_neg h2]
      exact ⟨fun q hq => by (cases hq), fun _ => if_neg (by omega)⟩

/-- More memory and smaller requests. -/
theorem allocate_layout {Q : PanicKind → Prop} {t t' : Target} (hQ : Q .allocFailure)
    (hQ' : Q .capacityOverflow) (h : t.ptr = t'.ptr) (hm : t.memLimit ≤ t'.memLimit)
    (n n' : Nat) (hn : n' ≤ n) :
    (∀ q, t.allocate n = some q → Q q ∨ t'.allocate n' = some q) ∧
      (t.allocate n = none → t'.allocate n' = none) := by
  have hi := isizeMax_ptr h
  unfold Target.allocate
  rw [hi]
  by_cases h1 : t'.isizeMax < n
  · simp only [if_pos h1]
    exact ⟨fun q hq => .inl (by cases hq; exact hQ'), fun h => by cases h⟩
  · by_cases h2 : t.memLimit < n
    · simp only [if_neg h1, if_pos h2]
      exact ⟨fun q hq => .inl (by cases hq; exact hQ), fun h => by cases h⟩
    · simp only [if_neg h1, if_neg h2]
      exact ⟨fun q hq => by (cases hq), fun _ => by rw [if_neg (by omega), if_neg (by omega)]⟩

/-- The same machine. -/
theorem allocate_same {Q : PanicKind → Prop} (t : Target) (n n' : Nat) (hn : n = n') :
    (∀ q, t.allocate n = some q → Q q ∨ t.allocate n' = some q) ∧
      (t.allocate n = none → t.allocate n' = none) := by
  subst hn; exact ⟨fun _ h => .inr h, id⟩

end Dlhn
