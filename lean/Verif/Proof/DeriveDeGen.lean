import Verif.Proof.DeriveDe
import Verif.Proof.BodyGen
import Verif.Proof.BodySer
/-! # Facts about reading derived types, on every input -/
namespace Dlhn
namespace Derive

open Spec hiding variantFields
open De (Closed)

section
variable {t : Target} {P : ∀ {α : Type}, Prog DeErr α → Prop} (hP : Closed t @P)
include hP

theorem closed_numDecimal : P (Format.deBigDecimal t) := by
  refine hP.bind (Body.closed_vecU8 hP) fun bs => ?_
  show P (if _ then _ else _)
  split
  · exact hP.ok _
  · exact hP.wrap (hP.wrap hP.u64 _) _

theorem closed_timeDate (mode : BuildMode)
    (hd : mode = .release ∨ ∀ {α : Type}, P (.done (.panic .overflow) : Prog DeErr α)) :
    P (Format.deDate mode) := by
  refine hP.bind (hP.wrap hP.u32 _) fun y => ?_
  split
  · rcases hd with rfl | hd
    · rename_i h; simp [addI32] at h
    · exact hd
  · refine hP.bind hP.u16 fun o => ?_
    split
    · rcases hd with rfl | hd
      · rename_i h; simp [addU16] at h
      · exact hd
    · split
      · exact hP.err _
      · exact hP.ok _

theorem closed_offsetDateTime
    (hd : ∀ {α : Type}, P (.done (.panic .timeRange) : Prog DeErr α)) :
    P Format.deDateTime := by
  refine hP.bind (hP.wrap hP.u64 _) fun s => hP.bind hP.u32 fun n => ?_
  split
  · exact hP.err _
  · split
    · exact hd
    · exact hP.ok _

theorem closed_entries {α : Type} {p : Prog DeErr α} (h : P p) (n : Nat) : P (deEntries t p n) := by
  induction n with
  | zero => exact hP.ok _
  | succ n ih => exact hP.bind hP.string fun _ => hP.bind h fun _ => hP.wrap ih _

end

/-- The panics allowed by `P` cover those the types in `l` can have. -/
structure Covers (P : ∀ {α : Type}, Prog DeErr α → Prop) (mode : BuildMode) (l : List RTy) : Prop where
  borrowed : .str ∈ l ∨ .bytes ∈ l → ∀ {α : Type}, P (.done (.panic .todo) : Prog DeErr α)
  date : .date ∈ l ∨ .timeDate ∈ l → mode = .release ∨
    ∀ {α : Type}, P (.done (.panic .overflow) : Prog DeErr α)
  instant : .offsetDateTime ∈ l → ∀ {α : Type}, P (.done (.panic .timeRange) : Prog DeErr α)

theorem Covers.sub {P : ∀ {α : Type}, Prog DeErr α → Prop} {mode : BuildMode} {l m : List RTy}
    (h : Covers @P mode l) (hs : ∀ U ∈ m, U ∈ l) : Covers @P mode m where
  borrowed hb := h.borrowed (hb.imp (hs _) (hs _))
  date hb := h.date (hb.imp (hs _) (hs _))
  instant hb := h.instant (hs _ hb)

mutual
theorem closed_deTy {t : Target} {P : ∀ {α : Type}, Prog DeErr α → Prop} (hP : Closed t @P)
    (mode : BuildMode) (env : Env) : (T : RTy) → Covers @P mode (readParts T) →
    P (deTy t mode env T)
  | .unit, _ => by rw [deTy]; exact hP.ok _
  | .bool, _ => by rw [deTy]; exact hP.bool
  | .u8, _ => by rw [deTy]; exact hP.wrap (hP.read 1 (by decide)) _
  | .u16, _ => by rw [deTy]; exact hP.u16
  | .u32, _ => by rw [deTy]; exact hP.u32
  | .u64, _ => by rw [deTy]; exact hP.u64
  | .i8, _ => by rw [deTy]; exact hP.wrap (hP.read 1 (by decide)) _
  | .i16, _ => by rw [deTy]; exact hP.wrap hP.u16 _
  | .i32, _ => by rw [deTy]; exact hP.wrap hP.u32 _
  | .i64, _ => by rw [deTy]; exact hP.wrap hP.u64 _
  | .f32, _ => by rw [deTy]; exact hP.wrap (hP.read 4 (by decide)) _
  | .f64, _ => by rw [deTy]; exact hP.wrap (hP.read 8 (by decide)) _
  | .bigUint, _ => by rw [deTy]; exact Body.closed_bigUint hP
  | .numBigUint, _ => by rw [deTy]; exact hP.wrap (Body.closed_vecU8 hP) _
  | .bigInt, _ => by rw [deTy]; exact Body.closed_bigInt hP
  | .numBigInt, _ => by rw [deTy]; exact hP.wrap (Body.closed_vecU8 hP) _
  | .bigDecimal, _ => by rw [deTy]; exact Body.closed_bigDecimal hP
  | .numBigDecimal, _ => by rw [deTy]; exact closed_numDecimal hP
  | .string, _ => by rw [deTy]; exact hP.string
  | .byteBuf, _ => by rw [deTy]; exact hP.byteBuf
  | .dateTime, _ => by rw [deTy]; exact Body.closed_dateTime hP
  | .str, h => by rw [deTy]; exact h.borrowed (by simp [readParts])
  | .bytes, h => by rw [deTy]; exact h.borrowed (by simp [readParts])
  | .date, h => by rw [deTy]; exact Body.closed_date hP mode (h.date (by simp [readParts]))
  | .timeDate, h => by rw [deTy]; exact closed_timeDate hP mode (h.date (by simp [readParts]))
  | .offsetDateTime, h => by
    rw [deTy]; exact closed_offsetDateTime hP (h.instant (by simp [readParts]))
  | .union _, _ => by rw [deTy]; exact hP.err _
  | .foreign, _ => by rw [deTy]; exact hP.err _
  | .option T, h => by
    rw [deTy]
    have ih := closed_deTy hP mode env T (h.sub fun U hU => by simp [readParts, hU])
    refine hP.bind hP.bool fun b => ?_
    cases b
    · exact hP.ok _
    · exact hP.wrap ih _
  | .vec T, h => by
    rw [deTy]
    have ih := closed_deTy hP mode env T (h.sub fun U hU => by simp [readParts, hU])
    exact hP.bind hP.u64 fun _ => hP.times ih _
  | .btreeMap T, h => by
    rw [deTy]
    have ih := closed_deTy hP mode env T (h.sub fun U hU => by simp [readParts, hU])
    exact hP.bind hP.u64 fun _ => hP.wrap (closed_entries hP ih _) _
  | .hashMap T, h => by
    rw [deTy]
    have ih := closed_deTy hP mode env T (h.sub fun U hU => by simp [readParts, hU])
    exact hP.bind hP.u64 fun _ => hP.wrap (closed_entries hP ih _) _
  | .tuple Ts, h => by
    rw [deTy]
    exact closed_deTuple hP mode env Ts (h.sub fun U hU => by simp [readParts, hU])
  | .struct name (.named fs), h => by
    rw [deTy]
    exact closed_deFields hP mode env fs (h.sub fun U hU => by simp [readParts, hU])
  | .struct name (.unnamed []), _ => by rw [deTy]; exact hP.ok _
  | .struct name (.unnamed [.mk attrs fname T]), h => by
    rw [deTy]
    exact hP.wrap (closed_deTy hP mode env T (h.sub fun U hU => by simp [readParts, hU])) _
  | .struct name (.unnamed (f :: g :: fs)), h => by
    rw [deTy]
    exact closed_deFields hP mode env (f :: g :: fs) (h.sub fun U hU => by simp [readParts, hU])
  | .struct name .unit, _ => by rw [deTy]; exact hP.ok _
  | .enum name vs, h => by
    rw [deTy]
    exact hP.bind hP.u16 fun i =>
      closed_deVariant hP mode env vs (h.sub fun U hU => by simp [readParts, hU]) _
theorem closed_deTuple {t : Target} {P : ∀ {α : Type}, Prog DeErr α → Prop} (hP : Closed t @P)
    (mode : BuildMode) (env : Env) : (Ts : List RTy) → Covers @P mode (readPartsAll Ts) →
    P (deTuple t mode env Ts)
  | [], _ => by rw [deTuple]; exact hP.ok _
  | T :: Ts, h => by
    rw [deTuple]
    exact hP.bind (closed_deTy hP mode env T (h.sub fun U hU => by simp [readPartsAll, hU])) fun _ =>
      hP.wrap (closed_deTuple hP mode env Ts (h.sub fun U hU => by simp [readPartsAll, hU])) _
theorem closed_deFields {t : Target} {P : ∀ {α : Type}, Prog DeErr α → Prop} (hP : Closed t @P)
    (mode : BuildMode) (env : Env) : (fs : List RField) → Covers @P mode (readPartsFields fs) →
    P (deFields t mode env fs)
  | [], _ => by rw [deFields]; exact hP.ok _
  | .mk attrs _ T :: fs, h => by
    rw [deFields]
    have ih := closed_deFields hP mode env fs (h.sub fun U hU => by simp [readPartsFields, hU])
    by_cases hs : SkippedDe attrs
    · rw [if_pos ((deSkips_iff attrs).mpr hs)]
      split
      · exact hP.wrap ih _
      · exact hP.err _
    · rw [if_neg (fun h' => hs ((deSkips_iff attrs).mp h'))]
      exact hP.bind (closed_deTy hP mode env T
        (h.sub fun U hU => by simp [readPartsFields, hs, hU])) fun _ => hP.wrap ih _
theorem closed_deVariant {t : Target} {idx : Nat} {P : ∀ {α : Type}, Prog DeErr α → Prop} (hP : Closed t @P)
    (mode : BuildMode) (env : Env) : (vs : List RVariant) → Covers @P mode (readPartsVariants vs) →
    (n : Nat) → P (deVariant t mode env idx n vs)
  | [], _, _ => by rw [deVariant]; exact hP.err _
  | .mk attrs vn fields :: vs, h, n => by
    have ih := closed_deVariant (idx := idx) hP mode env vs (h.sub fun U hU => by simp [readPartsVariants, hU])
    by_cases hs : SkippedDe attrs
    · rw [deVariant_skip _ _ _ _ hs]
      exact hP.wrap (ih n) _
    · cases n with
      | zero =>
        rw [deVariant_zero _ _ _ hs]
        exact hP.wrap (closed_dePayload hP mode env fields
          (h.sub fun U hU => by simp [readPartsVariants, hs, hU])) _
      | succ n =>
        rw [deVariant_succ _ _ _ _ hs]
        exact hP.wrap (ih n) _
theorem closed_dePayload {t : Target} {P : ∀ {α : Type}, Prog DeErr α → Prop} (hP : Closed t @P)
    (mode : BuildMode) (env : Env) : (fields : RFields) → Covers @P mode (readPartsPayload fields) →
    P (dePayload t mode env fields)
  | .named fs, h => by
    rw [dePayload]
    exact closed_deFields hP mode env fs (h.sub fun U hU => by simp [readPartsPayload, hU])
  | .unnamed fs, h => by
    rw [dePayload]
    exact closed_deFields hP mode env fs (h.sub fun U hU => by simp [readPartsPayload, hU])
  | .unit, _ => by rw [dePayload]; exact hP.ok _
end

theorem strict_deTy {t : Target} (ht : t.ptr = .w64) (mode : BuildMode) (env : Env) (T : RTy) :
    Prog.Strict De.orRead (deTy t mode env T) :=
  closed_deTy (De.closed_strict ht) mode env T
    ⟨fun _ => trivial, fun _ => .inr trivial, fun _ => trivial⟩

theorem allocLe_deTy (t : Target) (mode : BuildMode) (env : Env) (T : RTy) :
    Prog.AllocLe 4096 (deTy t mode env T) :=
  closed_deTy (De.closed_allocLe t) mode env T
    ⟨fun _ => trivial, fun _ => .inr trivial, fun _ => trivial⟩

theorem total_deTy {t : Target} (hm : 4096 ≤ t.memLimit) (mode : BuildMode) (env : Env) (T : RTy)
    (hb : .str ∉ readParts T ∧ .bytes ∉ readParts T)
    (hd : mode = .debug → .date ∉ readParts T ∧ .timeDate ∉ readParts T)
    (hi : .offsetDateTime ∉ readParts T) : Prog.Total t (deTy t mode env T) :=
  closed_deTy (De.closed_total hm) mode env T
    ⟨fun h => (h.elim hb.1 hb.2).elim,
      fun h => by
        cases mode with
        | release => exact .inl rfl
        | debug => exact (h.elim (hd rfl).1 (hd rfl).2).elim,
      fun h => (hi h).elim⟩

theorem panicsIn_deTy {t : Target} (hm : 4096 ≤ t.memLimit) (mode : BuildMode) (env : Env) (T : RTy)
    (R : PanicKind → Prop) (hb : .str ∈ readParts T ∨ .bytes ∈ readParts T → R .todo)
    (hd : .date ∈ readParts T ∨ .timeDate ∈ readParts T → mode = .release ∨ R .overflow)
    (hi : .offsetDateTime ∈ readParts T → R .timeRange) :
    Body.PanicsIn t R (deTy t mode env T) := by
  have key : ∀ k, R k → ∀ {α : Type}, Body.PanicsIn t R (.done (.panic k) : Prog DeErr α) := by
    intro k hk α fin bs q hx
    cases hx
    exact hk
  exact closed_deTy (Body.closed_panicsIn hm R) mode env T
    ⟨fun h => key _ (hb h), fun h => (hd h).imp_right fun hr => key _ hr, fun h => key _ (hi h)⟩

end Derive
end Dlhn
