import Verif.Spec.ErrorText
import Verif.Proof.Errors
import Verif.Proof.DeriveAgree
import Verif.Proof.Lenient
/-! # Facts about the texts of errors -/
namespace Dlhn
open Spec hiding variantFields
open De

/-- Whenever the decoder reports a message, `R` holds of its text and the data. -/
def Tells {α : Type} (t : Target) (R : String → List UInt8 → Prop) (p : Prog DeErr α) : Prop :=
  ∀ fin bs m, Prog.exec t fin p bs = .err (.message m) → R m bs

/-- What holds of the end of some data holds of them. -/
def Pulls (R : String → List UInt8 → Prop) : Prop := ∀ m bs k, R m (bs.drop k) → R m bs

theorem NamesIndex.pull (count : Nat → Prop) : Pulls (NamesIndex count) := by
  rintro m bs k ⟨j, i, n, rest, h, hr⟩
  exact ⟨k + j, i, n, rest, by rwa [List.drop_drop] at h, hr⟩

theorem NamesIndex.mono {P Q : Nat → Prop} (h : ∀ n, P n → Q n) {m : String} {bs : List UInt8} :
    NamesIndex P m bs → NamesIndex Q m bs := by
  rintro ⟨k, i, n, rest, h1, h2, h3⟩
  exact ⟨k, i, n, rest, h1, h n h2, h3⟩

theorem unknownVariant_text (i n : Nat) : unknownVariant i n = .message (unknownIndexText i n) := by
  have h1 : "invalid value: integer `" = "invalid value: " ++ "integer `" := by simp
  have h2 : "`, expected variant index 0 <= i < " =
    "`" ++ (", expected " ++ "variant index 0 <= i < ") := by simp
  unfold unknownVariant invalidValue DeErr.custom unknownIndexText
  congr 1
  rw [h1, h2]
  simp only [String.append_assoc]

namespace Tells
variable {α β : Type} {t : Target} {R : String → List UInt8 → Prop}

theorem mono {R' : String → List UInt8 → Prop} {p : Prog DeErr α} (h : Tells t R p)
    (hR : ∀ m bs, R m bs → R' m bs) : Tells t R' p := fun fin bs m he => hR m bs (h fin bs m he)

theorem ok (a : α) : Tells t R (.done (.ok a)) := fun _ _ _ h => by cases h
theorem panic (q : PanicKind) : Tells t R (.done (.panic q) : Prog DeErr α) := fun _ _ _ h => by cases h

theorem bind (hp : Pulls R) {p : Prog DeErr α} {f : α → Prog DeErr β} (h : Tells t R p)
    (hf : ∀ a, Tells t R (f a)) : Tells t R (Prog.bind p f) := by
  intro fin bs m he
  rw [Prog.exec_bind] at he
  cases hx : Prog.exec t fin p bs with
  | err e =>
    rw [hx] at he
    cases he
    exact h fin bs m hx
  | panic q => rw [hx] at he; cases he
  | ok r =>
    obtain ⟨a, rest⟩ := r
    rw [hx, Prog.next_ok] at he
    have hs := Prog.exec_suffix t fin p bs a rest hx
    refine hp m bs (bs.length - rest.length) ?_
    rw [← List.suffix_iff_eq_drop.mp hs]
    exact hf a fin rest m he

theorem wrap (hp : Pulls R) {p : Prog DeErr α} (h : Tells t R p) (f : α → β) :
    Tells t R (p >>= fun a => pure (f a)) := h.bind hp fun _ => ok _

theorem silent {S : Prop} {p : Prog DeErr α}
    (h : Prog.Outcomes (fun e => ∀ m, e ≠ .message m) S p) : Tells t R p := by
  intro fin bs m he
  have := h.exec t fin bs
  rw [he] at this
  exact absurd rfl (this m)

theorem times (hp : Pulls R) {p : Prog DeErr α} (h : Tells t R p) (n : Nat) :
    Tells t R (De.times n p) := by
  induction n with
  | zero => exact ok _
  | succ n ih => exact h.bind hp fun _ => ih.bind hp fun _ => ok _

end Tells

theorem read_silent (m : String) : DeErr.read ≠ .message m := by simp

/-! ## Types of the schema -/

namespace De

/-- The sizes of the enums in a list of types. -/
def sizesIn (l : List Ty) (n : Nat) : Prop := ∃ name vs, Ty.enum name vs ∈ l ∧ vs.length = n

/-- What the types in a list say. -/
def SaidBy (l : List Ty) (m : String) (bs : List UInt8) : Prop :=
  NamesIndex (sizesIn l) m bs ∨ (Ty.i128 ∈ l ∧ m = "i128 is not supported") ∨
    (Ty.u128 ∈ l ∧ m = "u128 is not supported")

theorem SaidBy.pull (l : List Ty) : Pulls (SaidBy l) := fun m bs k h =>
  h.imp (NamesIndex.pull _ m bs k) id

theorem SaidBy.sub {l l' : List Ty} (h : ∀ ty ∈ l, ty ∈ l') (m : String) (bs : List UInt8) :
    SaidBy l m bs → SaidBy l' m bs := by
  rintro (h' | ⟨h1, h2⟩ | ⟨h1, h2⟩)
  · exact .inl (NamesIndex.mono (fun n ⟨name, vs, hm, hl⟩ => ⟨name, vs, h _ hm, hl⟩) h')
  · exact .inr (.inl ⟨h _ h1, h2⟩)
  · exact .inr (.inr ⟨h _ h1, h2⟩)

/-- A variant is picked by its index, or there is none. -/
theorem tells_enum {t : Target} {l : List Ty} {name : String} {vs : List (String × VTy)}
    (hl : Ty.enum name vs ∈ l)
    (hv : ∀ (i : UInt16), i.toNat < vs.length → Tells t (SaidBy l) (deVariant t name i i.toNat vs)) :
    Tells t (SaidBy l) (de t (.enum name vs)) := by
  intro fin bs m he
  rw [de, Prog.bind_eq, Prog.exec_bind, exec_u16] at he
  cases hd : varintDecode 16 bs with
  | none => rw [hd] at he; cases he
  | some r =>
    obtain ⟨i, rest⟩ := r
    have hlt := varintDecode_lt (by simp) hd
    have hi : (UInt16.ofNat i).toNat = i := by rw [UInt16.toNat_ofNat', Nat.mod_eq_of_lt hlt]
    rw [hd] at he
    have he : Prog.exec t fin (deVariant t name (UInt16.ofNat i) (UInt16.ofNat i).toNat vs) rest
      = .err (.message m) := he
    by_cases h : i < vs.length
    · have := hv (UInt16.ofNat i) (by rw [hi]; exact h) fin rest m he
      obtain ⟨w, rfl⟩ := Prog.exec_suffix t fin (io PrefixVarint.decodeU16) bs _ rest
        (by rw [exec_u16, hd]; rfl)
      refine SaidBy.pull l m (w ++ rest) w.length ?_
      rwa [List.drop_left]
    · rw [hi, deVariant_past t name _ i vs (by omega), hi, unknownVariant_text] at he
      have hm : unknownIndexText i (i - (i - vs.length)) = m := by
        have he : Outcome.err (DeErr.message (unknownIndexText i (i - (i - vs.length)))) =
          (Outcome.err (DeErr.message m) : Outcome DeErr (Val × List UInt8)) := he
        simpa using he
      rw [show i - (i - vs.length) = vs.length by omega] at hm
      exact .inl ⟨0, i, vs.length, rest, hd, ⟨name, vs, hl, rfl⟩, by omega, hm.symm⟩

mutual
theorem tells_de (t : Target) (l : List Ty) : (ty : Ty) → (∀ U ∈ innerTypes ty, U ∈ l) →
    Tells t (SaidBy l) (de t ty)
  | .bool, _ => by rw [de]; exact .silent ((Prog.Outcomes.bool read_silent).wrap _)
  | .i8, _ => by rw [de]; exact .silent (((Prog.Outcomes.readBytes read_silent 1).wrap _).wrap _)
  | .i16, _ => by rw [de]; exact .silent (((Prog.Outcomes.u16 read_silent).wrap _).wrap _)
  | .i32, _ => by rw [de]; exact .silent (((Prog.Outcomes.u32 read_silent).wrap _).wrap _)
  | .i64, _ => by rw [de]; exact .silent (((Prog.Outcomes.u64 read_silent).wrap _).wrap _)
  | .i128, hl => by
    rw [de]
    intro fin bs m h
    cases h
    exact .inr (.inl ⟨hl _ (by simp [innerTypes]), rfl⟩)
  | .u8, _ => by rw [de]; exact .silent (((Prog.Outcomes.readBytes read_silent 1).wrap _).wrap _)
  | .u16, _ => by rw [de]; exact .silent ((Prog.Outcomes.u16 read_silent).wrap _)
  | .u32, _ => by rw [de]; exact .silent ((Prog.Outcomes.u32 read_silent).wrap _)
  | .u64, _ => by rw [de]; exact .silent ((Prog.Outcomes.u64 read_silent).wrap _)
  | .u128, hl => by
    rw [de]
    intro fin bs m h
    cases h
    exact .inr (.inr ⟨hl _ (by simp [innerTypes]), rfl⟩)
  | .f32, _ => by rw [de]; exact .silent (((Prog.Outcomes.readBytes read_silent 4).wrap _).wrap _)
  | .f64, _ => by rw [de]; exact .silent (((Prog.Outcomes.readBytes read_silent 8).wrap _).wrap _)
  | .char, _ => by
    rw [de]
    refine Tells.wrap (SaidBy.pull l) ?_ _
    refine (Tells.silent (Prog.Outcomes.string read_silent t)).bind (SaidBy.pull l) fun s => ?_
    split
    · intro fin bs m h; cases h
    · exact .ok _
  | .string, _ => by rw [de]; exact .silent ((Prog.Outcomes.string read_silent t).wrap _)
  | .byteBuf, _ => by rw [de]; exact .silent ((Prog.Outcomes.byteBuf read_silent t).wrap _)
  | .any, _ => by rw [de]; exact .panic _
  | .str, _ => by rw [de]; exact .panic _
  | .bytes, _ => by rw [de]; exact .panic _
  | .ignoredAny, _ => by rw [de]; exact .panic _
  | .option ty, hl => by
    rw [de]
    refine (Tells.silent (Prog.Outcomes.bool read_silent)).bind (SaidBy.pull l) fun b => ?_
    split
    · exact (tells_de t l ty fun U hU => hl U (by simp [innerTypes, hU])).wrap (SaidBy.pull l) _
    · exact .ok _
  | .unit, _ => by rw [de]; exact .ok _
  | .unitStruct n, _ => by rw [de]; exact .ok _
  | .newtypeStruct _ ty, hl => by
    rw [de]
    exact (tells_de t l ty fun U hU => hl U (by simp [innerTypes, hU])).wrap (SaidBy.pull l) _
  | .seq ty, hl => by
    rw [de]
    exact (Tells.silent (Prog.Outcomes.u64 read_silent)).bind (SaidBy.pull l) fun n =>
      ((tells_de t l ty fun U hU => hl U (by simp [innerTypes, hU])).times (SaidBy.pull l) _).wrap
        (SaidBy.pull l) _
  | .tuple ts, hl => by
    rw [de]
    exact (tells_all t l ts fun U hU => hl U (by simp [innerTypes, hU])).wrap (SaidBy.pull l) _
  | .tupleStruct _ ts, hl => by
    rw [de]
    exact (tells_all t l ts fun U hU => hl U (by simp [innerTypes, hU])).wrap (SaidBy.pull l) _
  | .map kt vt, hl => by
    rw [de]
    exact (Tells.silent (Prog.Outcomes.u64 read_silent)).bind (SaidBy.pull l) fun n =>
      (((tells_de t l kt fun U hU => hl U (by simp [innerTypes, hU])).bind (SaidBy.pull l) fun _ =>
        (tells_de t l vt fun U hU => hl U (by simp [innerTypes, hU])).wrap (SaidBy.pull l) _).times
          (SaidBy.pull l) _).wrap (SaidBy.pull l) _
  | .struct _ fs, hl => by
    rw [de]
    exact (tells_fields t l fs fun U hU => hl U (by simp [innerTypes, hU])).wrap (SaidBy.pull l) _
  | .enum name vs, hl => tells_enum (hl _ (by simp [innerTypes])) fun i hi =>
      tells_variant t l name i i.toNat vs hi fun U hU => hl U (by simp [innerTypes, hU])
theorem tells_all (t : Target) (l : List Ty) : (ts : List Ty) → (∀ U ∈ innerTypesAll ts, U ∈ l) →
    Tells t (SaidBy l) (deAll t ts)
  | [], _ => by rw [deAll]; exact .ok _
  | ty :: ts, hl => by
    rw [deAll]
    exact (tells_de t l ty fun U hU => hl U (by simp [innerTypesAll, hU])).bind (SaidBy.pull l)
      fun _ => (tells_all t l ts fun U hU => hl U (by simp [innerTypesAll, hU])).wrap (SaidBy.pull l) _
theorem tells_fields (t : Target) (l : List Ty) : (fs : List (String × Ty)) →
    (∀ U ∈ innerTypesFields fs, U ∈ l) → Tells t (SaidBy l) (deFields t fs)
  | [], _ => by rw [deFields]; exact .ok _
  | (n, ty) :: fs, hl => by
    rw [deFields]
    exact (tells_de t l ty fun U hU => hl U (by simp [innerTypesFields, hU])).bind (SaidBy.pull l)
      fun _ => (tells_fields t l fs fun U hU => hl U (by simp [innerTypesFields, hU])).wrap
        (SaidBy.pull l) _
theorem tells_variant (t : Target) (l : List Ty) (name : String) (i : UInt16) : (j : Nat) →
    (vs : List (String × VTy)) → j < vs.length → (∀ U ∈ innerTypesVariants vs, U ∈ l) →
    Tells t (SaidBy l) (deVariant t name i j vs)
  | j + 1, (_, _) :: vs, hj, hl => by
    rw [deVariant]
    exact tells_variant t l name i j vs (by simpa using hj)
      fun U hU => hl U (by simp [innerTypesVariants, hU])
  | 0, (vn, vt) :: vs, _, hl => by
    rw [deVariant]
    exact tells_payload t l name _ vn vt fun U hU => hl U (by simp [innerTypesVariants, hU])
theorem tells_payload (t : Target) (l : List Ty) (name : String) (i : UInt32) (vn : String) :
    (vt : VTy) → (∀ U ∈ innerTypesPayload vt, U ∈ l) → Tells t (SaidBy l) (dePayload t name i vn vt)
  | .unit, _ => by rw [dePayload]; exact .ok _
  | .newtype ty, hl => by
    rw [dePayload]
    exact (tells_de t l ty fun U hU => hl U (by simpa [innerTypesPayload] using hU)).wrap (SaidBy.pull l) _
  | .tuple ts, hl => by
    rw [dePayload]
    exact (tells_all t l ts fun U hU => hl U (by simpa [innerTypesPayload] using hU)).wrap (SaidBy.pull l) _
  | .struct fs, hl => by
    rw [dePayload]
    exact (tells_fields t l fs fun U hU => hl U (by simpa [innerTypesPayload] using hU)).wrap
      (SaidBy.pull l) _
end

end De

/-! ## Derived types -/

namespace Derive

/-- The numbers of readable variants of the enums in a list of types. -/
def countsIn (l : List RTy) (n : Nat) : Prop := ∃ name vs, RTy.enum name vs ∈ l ∧ readCount vs = n

/-- What the types in a list say. -/
def SaidBy (l : List RTy) (m : String) (bs : List UInt8) : Prop :=
  NamesIndex (countsIn l) m bs ∨ ((RTy.timeDate ∈ l ∨ RTy.offsetDateTime ∈ l) ∧ m = badDateText)

theorem SaidBy.pull (l : List RTy) : Pulls (SaidBy l) := fun m bs k h =>
  h.imp (NamesIndex.pull _ m bs k) id

variable {t : Target} {mode : BuildMode} {env : Env} {l : List RTy}

theorem tells_entries {α : Type} {p : Prog DeErr α} (h : Tells t (SaidBy l) p) (n : Nat) :
    Tells t (SaidBy l) (deEntries t p n) := by
  induction n with
  | zero => exact .ok _
  | succ n ih =>
    exact (Tells.silent (Prog.Outcomes.string read_silent t)).bind (SaidBy.pull l) fun _ =>
      h.bind (SaidBy.pull l) fun _ => ih.wrap (SaidBy.pull l) _

/-- A variant is picked by its index, or there is none. -/
theorem tells_enum {name : String} {vs : List RVariant} (hl : RTy.enum name vs ∈ l)
    (hv : ∀ (i n : Nat), n < readCount vs → Tells t (SaidBy l) (deVariant t mode env i n vs)) :
    Tells t (SaidBy l) (deTy t mode env (.enum name vs)) := by
  intro fin bs m he
  rw [deTy, Prog.bind_eq, Prog.exec_bind, De.deU16, exec_u16] at he
  cases hd : varintDecode 16 bs with
  | none => rw [hd] at he; cases he
  | some r =>
    obtain ⟨i, rest⟩ := r
    have hlt := varintDecode_lt (by simp) hd
    have hi : (UInt16.ofNat i).toNat = i := by rw [UInt16.toNat_ofNat', Nat.mod_eq_of_lt hlt]
    rw [hd] at he
    have he : Prog.exec t fin (deVariant t mode env (UInt16.ofNat i).toNat (UInt16.ofNat i).toNat vs) rest
      = .err (.message m) := he
    rw [hi] at he
    by_cases h : i < readCount vs
    · have := hv i i h fin rest m he
      obtain ⟨w, rfl⟩ := Prog.exec_suffix t fin (io PrefixVarint.decodeU16) bs _ rest
        (by rw [exec_u16, hd]; rfl)
      refine SaidBy.pull l m (w ++ rest) w.length ?_
      rwa [List.drop_left]
    · rw [deVariant_beyond t mode env fin vs i rest (by omega), unknownVariant_text] at he
      have hm : unknownIndexText i (i - (i - readCount vs)) = m := by simpa using he
      rw [show i - (i - readCount vs) = readCount vs by omega] at hm
      exact .inl ⟨0, i, readCount vs, rest, hd, ⟨name, vs, hl, rfl⟩, by omega, hm.symm⟩

theorem badDate_text : invalidValue "sequence" DeErr.read.expected = .message badDateText := by
  unfold invalidValue DeErr.custom DeErr.expected badDateText
  congr 1

/-- The parts compile. -/
def CompilesIn (env : Env) (l : List RTy) : Prop :=
  ∀ U ∈ l, DefaultedPart env U ∧ U ≠ .foreign ∧ ∀ name, U ≠ .union name

mutual
theorem tells_deTy (t : Target) (mode : BuildMode) (env : Env) (l : List RTy)
    (hc : CompilesIn env l) : (T : RTy) → (∀ U ∈ readParts T, U ∈ l) →
    Tells t (SaidBy l) (deTy t mode env T)
  | .unit, _ => by rw [deTy]; exact .ok _
  | .bool, _ => by rw [deTy]; exact .silent (Prog.Outcomes.bool read_silent)
  | .u8, _ => by rw [deTy]; exact .silent ((Prog.Outcomes.readBytes read_silent 1).wrap _)
  | .u16, _ => by rw [deTy]; exact .silent (Prog.Outcomes.u16 read_silent)
  | .u32, _ => by rw [deTy]; exact .silent (Prog.Outcomes.u32 read_silent)
  | .u64, _ => by rw [deTy]; exact .silent (Prog.Outcomes.u64 read_silent)
  | .i8, _ => by rw [deTy]; exact .silent ((Prog.Outcomes.readBytes read_silent 1).wrap _)
  | .i16, _ => by rw [deTy]; exact .silent ((Prog.Outcomes.u16 read_silent).wrap _)
  | .i32, _ => by rw [deTy]; exact .silent ((Prog.Outcomes.u32 read_silent).wrap _)
  | .i64, _ => by rw [deTy]; exact .silent ((Prog.Outcomes.u64 read_silent).wrap _)
  | .f32, _ => by rw [deTy]; exact .silent ((Prog.Outcomes.readBytes read_silent 4).wrap _)
  | .f64, _ => by rw [deTy]; exact .silent ((Prog.Outcomes.readBytes read_silent 8).wrap _)
  | .bigUint, _ => by rw [deTy]; exact .silent ((Body.outcomes_vecU8 read_silent t).wrap _)
  | .numBigUint, _ => by rw [deTy]; exact .silent ((Body.outcomes_vecU8 read_silent t).wrap _)
  | .bigInt, _ => by rw [deTy]; exact .silent ((Body.outcomes_vecU8 read_silent t).wrap _)
  | .numBigInt, _ => by rw [deTy]; exact .silent ((Body.outcomes_vecU8 read_silent t).wrap _)
  | .bigDecimal, _ => by rw [deTy]; exact .silent (Body.outcomes_bigDecimal read_silent t)
  | .numBigDecimal, _ => by
    rw [deTy]
    refine .silent (S := True) ((Body.outcomes_vecU8 read_silent t).bind fun _ bs => ?_)
    show Prog.Outcomes _ True (if _ then _ else _)
    split
    · trivial
    · exact ((Prog.Outcomes.u64 read_silent).wrap _).wrap _
  | .string, _ => by rw [deTy]; exact .silent (Prog.Outcomes.string read_silent t)
  | .byteBuf, _ => by rw [deTy]; exact .silent (Prog.Outcomes.byteBuf read_silent t)
  | .dateTime, _ => by rw [deTy]; exact .silent (Body.outcomes_dateTime read_silent)
  | .str, _ => by rw [deTy]; exact .panic _
  | .bytes, _ => by rw [deTy]; exact .panic _
  | .date, _ => by rw [deTy]; exact .silent (Body.outcomes_date read_silent mode)
  | .timeDate, hl => by
    rw [deTy]
    refine (Tells.silent ((Prog.Outcomes.u32 read_silent).wrap _)).bind (SaidBy.pull l) fun y => ?_
    split
    · exact .panic _
    · refine (Tells.silent (Prog.Outcomes.u16 read_silent)).bind (SaidBy.pull l) fun o => ?_
      split
      · exact .panic _
      · split
        · rw [badDate_text]
          intro fin bs m h
          cases h
          exact .inr ⟨.inl (hl _ (by simp [readParts])), rfl⟩
        · exact .ok _
  | .offsetDateTime, hl => by
    rw [deTy]
    refine (Tells.silent ((Prog.Outcomes.u64 read_silent).wrap _)).bind (SaidBy.pull l) fun s =>
      (Tells.silent (Prog.Outcomes.u32 read_silent)).bind (SaidBy.pull l) fun n => ?_
    split
    · rw [badDate_text]
      intro fin bs m h
      cases h
      exact .inr ⟨.inr (hl _ (by simp [readParts])), rfl⟩
    · split
      · exact .panic _
      · exact .ok _
  | .union n, hl => absurd rfl ((hc _ (hl _ (by simp [readParts]))).2.2 n)
  | .foreign, hl => absurd rfl (hc _ (hl _ (by simp [readParts]))).2.1
  | .option T, hl => by
    rw [deTy]
    refine (Tells.silent (Prog.Outcomes.bool read_silent)).bind (SaidBy.pull l) fun b => ?_
    cases b
    · exact .ok _
    · exact (tells_deTy t mode env l hc T fun U hU => hl U (by simp [readParts, hU])).wrap
        (SaidBy.pull l) _
  | .vec T, hl => by
    rw [deTy]
    exact (Tells.silent (Prog.Outcomes.u64 read_silent)).bind (SaidBy.pull l) fun _ =>
      (tells_deTy t mode env l hc T fun U hU => hl U (by simp [readParts, hU])).times (SaidBy.pull l) _
  | .btreeMap T, hl => by
    rw [deTy]
    exact (Tells.silent (Prog.Outcomes.u64 read_silent)).bind (SaidBy.pull l) fun _ =>
      (tells_entries (tells_deTy t mode env l hc T fun U hU => hl U (by simp [readParts, hU])) _).wrap
        (SaidBy.pull l) _
  | .hashMap T, hl => by
    rw [deTy]
    exact (Tells.silent (Prog.Outcomes.u64 read_silent)).bind (SaidBy.pull l) fun _ =>
      (tells_entries (tells_deTy t mode env l hc T fun U hU => hl U (by simp [readParts, hU])) _).wrap
        (SaidBy.pull l) _
  | .tuple Ts, hl => by
    rw [deTy]
    exact tells_deTuple t mode env l hc Ts fun U hU => hl U (by simp [readParts, hU])
  | .struct name (.named fs), hl => by
    rw [deTy]
    exact tells_deFields t mode env l hc fs (hc _ (hl (.struct name (.named fs)) (by simp [readParts]))).1
      fun U hU => hl U (by simp [readParts, hU])
  | .struct _ (.unnamed []), _ => by rw [deTy]; exact .ok _
  | .struct _ (.unnamed [.mk _ _ T]), hl => by
    rw [deTy]
    exact (tells_deTy t mode env l hc T fun U hU => hl U (by simp [readParts, hU])).wrap
      (SaidBy.pull l) _
  | .struct name (.unnamed (f :: g :: fs)), hl => by
    rw [deTy]
    exact tells_deFields t mode env l hc (f :: g :: fs)
      (hc _ (hl (.struct name (.unnamed (f :: g :: fs))) (by simp [readParts]))).1
      fun U hU => hl U (by simp [readParts, hU])
  | .struct _ .unit, _ => by rw [deTy]; exact .ok _
  | .enum name vs, hl =>
    have he := hl (.enum name vs) (by simp [readParts])
    tells_enum he fun i n hn => tells_deVariant t mode env l hc vs (hc _ he).1
      (fun U hU => hl U (by simp [readParts, hU])) i n hn
theorem tells_deTuple (t : Target) (mode : BuildMode) (env : Env) (l : List RTy)
    (hc : CompilesIn env l) : (Ts : List RTy) → (∀ U ∈ readPartsAll Ts, U ∈ l) →
    Tells t (SaidBy l) (deTuple t mode env Ts)
  | [], _ => by rw [deTuple]; exact .ok _
  | T :: Ts, hl => by
    rw [deTuple]
    exact (tells_deTy t mode env l hc T fun U hU => hl U (by simp [readPartsAll, hU])).bind
      (SaidBy.pull l) fun _ => (tells_deTuple t mode env l hc Ts fun U hU =>
        hl U (by simp [readPartsAll, hU])).wrap (SaidBy.pull l) _
theorem tells_deFields (t : Target) (mode : BuildMode) (env : Env) (l : List RTy)
    (hc : CompilesIn env l) : (fs : List RField) → DefaultedFields env fs →
    (∀ U ∈ readPartsFields fs, U ∈ l) → Tells t (SaidBy l) (deFields t mode env fs)
  | [], _, _ => by rw [deFields]; exact .ok _
  | .mk attrs n T :: fs, hf, hl => by
    have ih := tells_deFields t mode env l hc fs (fun f hfm => hf f (by simp [hfm]))
      fun U hU => hl U (by simp [readPartsFields, hU])
    rw [deFields]
    by_cases hs : SkippedDe attrs
    · rw [if_pos ((deSkips_iff attrs).mpr hs)]
      obtain ⟨v, hv⟩ : ∃ v, env.dflt attrs T = some v := hf (.mk attrs n T) (by simp) hs
      rw [hv]
      exact ih.wrap (SaidBy.pull l) _
    · rw [if_neg (fun h' => hs ((deSkips_iff attrs).mp h'))]
      exact (tells_deTy t mode env l hc T fun U hU => hl U (by simp [readPartsFields, hs, hU])).bind
        (SaidBy.pull l) fun _ => ih.wrap (SaidBy.pull l) _
theorem tells_deVariant (t : Target) (mode : BuildMode) (env : Env) (l : List RTy)
    (hc : CompilesIn env l) : (vs : List RVariant) →
    (∀ v ∈ vs, DefaultedFields env (Spec.variantFields v)) →
    (∀ U ∈ readPartsVariants vs, U ∈ l) → (i n : Nat) → n < readCount vs →
    Tells t (SaidBy l) (deVariant t mode env i n vs)
  | [], _, _, i, n, hn => by simp [readCount] at hn
  | .mk attrs vn fields :: vs, hd, hl, i, n, hn => by
    rw [readCount_cons] at hn
    have ih := tells_deVariant t mode env l hc vs (fun v hv => hd v (by simp [hv]))
      fun U hU => hl U (by simp [readPartsVariants, hU])
    by_cases hs : SkippedDe attrs
    · rw [if_pos (show SkippedDe (variantAttrs (.mk attrs vn fields)) from hs), Nat.zero_add] at hn
      rw [deVariant_skip _ _ _ _ hs]
      exact (ih i n hn).wrap (SaidBy.pull l) _
    · rw [if_neg (show ¬ SkippedDe (variantAttrs (.mk attrs vn fields)) from hs)] at hn
      cases n with
      | zero =>
        rw [deVariant_zero _ _ _ hs]
        exact (tells_dePayload t mode env l hc fields (hd _ List.mem_cons_self)
          fun U hU => hl U (by simp [readPartsVariants, hs, hU])).wrap (SaidBy.pull l) _
      | succ n =>
        rw [deVariant_succ _ _ _ _ hs]
        exact (ih i n (by omega)).wrap (SaidBy.pull l) _
theorem tells_dePayload (t : Target) (mode : BuildMode) (env : Env) (l : List RTy)
    (hc : CompilesIn env l) : (fields : RFields) → DefaultedFields env (declared fields) →
    (∀ U ∈ readPartsPayload fields, U ∈ l) → Tells t (SaidBy l) (dePayload t mode env fields)
  | .named fs, hd, hl => by
    rw [dePayload]
    exact tells_deFields t mode env l hc fs hd fun U hU => hl U (by simpa [readPartsPayload] using hU)
  | .unnamed fs, hd, hl => by
    rw [dePayload]
    exact tells_deFields t mode env l hc fs hd fun U hU => hl U (by simpa [readPartsPayload] using hU)
  | .unit, _, _ => by rw [dePayload]; exact .ok _
end

end Derive

/-! ## Serializing -/

namespace Ser

/-- The errors that serializing has of its own. -/
def OwnErr (e : SerErr) : Prop :=
  e ∈ [SerErr.unsupportedKeyType, .message "i128 is not supported", .message "u128 is not supported"]

theorem own_keyFaults (k : Val) : ∀ e ∈ keyFaults k, OwnErr e := by
  cases k <;> simp [keyFaults, OwnErr]

mutual
theorem own_faults : (v : Val) → ∀ e ∈ faults v, OwnErr e
  | .i128 _, e, h => by simp [faults] at h; simp [OwnErr, h]
  | .u128 _, e, h => by simp [faults] at h; simp [OwnErr, h]
  | .some v, e, h => own_faults v e (by simpa [faults] using h)
  | .newtypeStruct _ v, e, h => own_faults v e (by simpa [faults] using h)
  | .newtypeVariant _ _ _ v, e, h => own_faults v e (by simpa [faults] using h)
  | .seq _ vs, e, h => own_allFaults vs e (by simpa [faults] using h)
  | .tuple vs, e, h => own_allFaults vs e (by simpa [faults] using h)
  | .tupleStruct _ vs, e, h => own_allFaults vs e (by simpa [faults] using h)
  | .tupleVariant _ _ _ vs, e, h => own_allFaults vs e (by simpa [faults] using h)
  | .map _ es, e, h => own_entriesFaults es e (by simpa [faults] using h)
  | .struct _ fs, e, h => own_fieldsFaults fs e (by simpa [faults] using h)
  | .structVariant _ _ _ fs, e, h => own_fieldsFaults fs e (by simpa [faults] using h)
  | .bool _, e, h | .i8 _, e, h | .i16 _, e, h | .i32 _, e, h | .i64 _, e, h | .u8 _, e, h
  | .u16 _, e, h | .u32 _, e, h | .u64 _, e, h | .f32 _, e, h | .f64 _, e, h | .char _, e, h
  | .str _, e, h | .bytes _, e, h | .none, e, h | .unit, e, h | .unitStruct _, e, h
  | .unitVariant _ _ _, e, h => by simp [faults] at h
theorem own_allFaults : (vs : List Val) → ∀ e ∈ allFaults vs, OwnErr e
  | [], e, h => by simp [allFaults] at h
  | v :: vs, e, h => by
    rw [allFaults, List.mem_append] at h
    exact h.elim (own_faults v e) (own_allFaults vs e)
theorem own_entriesFaults : (es : List (Val × Val)) → ∀ e ∈ entriesFaults es, OwnErr e
  | [], e, h => by simp [entriesFaults] at h
  | (k, v) :: es, e, h => by
    rw [entriesFaults, List.mem_append, List.mem_append] at h
    exact h.elim (fun h => h.elim (own_keyFaults k e) (own_faults v e)) (own_entriesFaults es e)
theorem own_fieldsFaults : (fs : List (String × Val)) → ∀ e ∈ fieldsFaults fs, OwnErr e
  | [], e, h => by simp [fieldsFaults] at h
  | (_, v) :: fs, e, h => by
    rw [fieldsFaults, List.mem_append] at h
    exact h.elim (own_faults v e) (own_fieldsFaults fs e)
end

end Ser
end Dlhn
