import Verif.Spec.Rec
import Verif.Proof.DeGen
import Verif.Proof.DeHas
import Verif.Proof.Ser
import Verif.Proof.Header
import Verif.Proof.Derive
/-! # Recursive types: helper lemmas -/
namespace Dlhn.Rec

open PrefixVarint De Spec

set_option linter.unusedSectionVars false

/-! ## Unrolling names -/

mutual
/-- Replace every name by a type. -/
def unroll (sub : String → Ty) : RecTy → Ty
  | .leaf ty => ty
  | .named n => sub n
  | .option T => .option (unroll sub T)
  | .newtypeStruct name T => .newtypeStruct name (unroll sub T)
  | .seq T => .seq (unroll sub T)
  | .tuple Ts => .tuple (unrollAll sub Ts)
  | .tupleStruct name Ts => .tupleStruct name (unrollAll sub Ts)
  | .map kt T => .map kt (unroll sub T)
  | .struct name fs => .struct name (unrollFields sub fs)
  | .enum name vs => .enum name (unrollVariants sub vs)
def unrollAll (sub : String → Ty) : List RecTy → List Ty
  | [] => []
  | T :: Ts => unroll sub T :: unrollAll sub Ts
def unrollFields (sub : String → Ty) : List (String × RecTy) → List (String × Ty)
  | [] => []
  | (n, T) :: fs => (n, unroll sub T) :: unrollFields sub fs
def unrollVariants (sub : String → Ty) : List (String × RecVTy) → List (String × VTy)
  | [] => []
  | (n, vt) :: vs => (n, unrollPayload sub vt) :: unrollVariants sub vs
def unrollPayload (sub : String → Ty) : RecVTy → VTy
  | .unit => .unit
  | .newtype T => .newtype (unroll sub T)
  | .tuple Ts => .tuple (unrollAll sub Ts)
  | .struct fs => .struct (unrollFields sub fs)
end

/-- A type without values whose decoder always fails. -/
def empty : Ty := .enum "" []

/-- The named type, unrolled `d` times. -/
def unrollNamed (defs : Defs) : Nat → String → Ty
  | 0, _ => empty
  | d + 1, n => unroll (unrollNamed defs d) (defs n)

mutual
theorem deBody_unroll (t : Target) (sub : String → Ty) :
    (T : RecTy) → deBody t (fun n => de t (sub n)) T = de t (unroll sub T)
  | .leaf ty => by rw [deBody, unroll]
  | .named n => by rw [deBody, unroll]
  | .option T => by rw [deBody, unroll, de, deBody_unroll t sub T]
  | .newtypeStruct _ T => by rw [deBody, unroll, de, deBody_unroll t sub T]
  | .seq T => by rw [deBody, unroll, de, deBody_unroll t sub T]
  | .tuple Ts => by rw [deBody, unroll, de, deAll_unroll t sub Ts]
  | .tupleStruct _ Ts => by rw [deBody, unroll, de, deAll_unroll t sub Ts]
  | .map kt T => by rw [deBody, unroll, de, deBody_unroll t sub T]
  | .struct _ fs => by rw [deBody, unroll, de, deFields_unroll t sub fs]
  | .enum name vs => by
    rw [deBody, unroll, de]
    congr 1
    funext i
    exact deVariant_unroll t sub name i _ vs
theorem deAll_unroll (t : Target) (sub : String → Ty) :
    (Ts : List RecTy) → deAll t (fun n => de t (sub n)) Ts = De.deAll t (unrollAll sub Ts)
  | [] => by rw [deAll, unrollAll, De.deAll]
  | T :: Ts => by rw [deAll, unrollAll, De.deAll, deBody_unroll t sub T, deAll_unroll t sub Ts]
theorem deFields_unroll (t : Target) (sub : String → Ty) : (fs : List (String × RecTy)) →
    deFields t (fun n => de t (sub n)) fs = De.deFields t (unrollFields sub fs)
  | [] => by rw [deFields, unrollFields, De.deFields]
  | (n, T) :: fs => by
    rw [deFields, unrollFields, De.deFields, deBody_unroll t sub T, deFields_unroll t sub fs]
theorem deVariant_unroll (t : Target) (sub : String → Ty) (name : String) (i : UInt16) :
    (j : Nat) → (vs : List (String × RecVTy)) →
    deVariant t (fun n => de t (sub n)) name i j vs
      = De.deVariant t name i j (unrollVariants sub vs)
  | j, [] => by rw [deVariant, unrollVariants, De.deVariant]
  | j + 1, (n, vt) :: vs => by
    rw [deVariant, unrollVariants, De.deVariant]
    exact deVariant_unroll t sub name i j vs
  | 0, (n, vt) :: vs => by
    rw [deVariant, unrollVariants, De.deVariant]
    exact dePayload_unroll t sub name _ n vt
theorem dePayload_unroll (t : Target) (sub : String → Ty) (name : String) (i : UInt32)
    (vn : String) : (vt : RecVTy) →
    dePayload t (fun n => de t (sub n)) name i vn vt
      = De.dePayload t name i vn (unrollPayload sub vt)
  | .unit => by rw [dePayload, unrollPayload, De.dePayload]
  | .newtype T => by rw [dePayload, unrollPayload, De.dePayload, deBody_unroll t sub T]
  | .tuple Ts => by rw [dePayload, unrollPayload, De.dePayload, deAll_unroll t sub Ts]
  | .struct fs => by rw [dePayload, unrollPayload, De.dePayload, deFields_unroll t sub fs]
end

mutual
theorem has_unroll (t : Target) (sub : String → Ty) : (T : RecTy) → (v : Val) →
    (HasRec t (fun n => Has t (sub n)) T v ↔ Has t (unroll sub T) v)
  | .leaf ty, v => by rw [HasRec, unroll]
  | .named n, v => by rw [HasRec, unroll]
  | .option T, v => by simp only [HasRec, unroll, Has, has_unroll t sub T]
  | .newtypeStruct _ T, v => by simp only [HasRec, unroll, Has, has_unroll t sub T]
  | .seq T, v => by simp only [HasRec, unroll, Has, has_unroll t sub T]
  | .tuple Ts, v => by simp only [HasRec, unroll, Has, hasAll_unroll t sub Ts]
  | .tupleStruct _ Ts, v => by simp only [HasRec, unroll, Has, hasAll_unroll t sub Ts]
  | .map kt T, v => by simp only [HasRec, unroll, Has, has_unroll t sub T]
  | .struct _ fs, v => by simp only [HasRec, unroll, Has, hasFields_unroll t sub fs]
  | .enum name vs, v => by simp only [HasRec, unroll, Has, hasVariant_unroll t sub name 0 vs]
theorem hasAll_unroll (t : Target) (sub : String → Ty) : (Ts : List RecTy) → (vs : List Val) →
    (HasRecAll t (fun n => Has t (sub n)) Ts vs ↔ HasAll t (unrollAll sub Ts) vs)
  | [], vs => by rw [HasRecAll, unrollAll, HasAll]
  | T :: Ts, vs => by
    simp only [HasRecAll, unrollAll, HasAll, has_unroll t sub T, hasAll_unroll t sub Ts]
theorem hasFields_unroll (t : Target) (sub : String → Ty) : (fts : List (String × RecTy)) →
    (fs : List (String × Val)) →
    (HasRecFields t (fun n => Has t (sub n)) fts fs ↔ HasFields t (unrollFields sub fts) fs)
  | [], fs => by rw [HasRecFields, unrollFields, HasFields]
  | (n, T) :: fts, fs => by
    simp only [HasRecFields, unrollFields, HasFields, has_unroll t sub T,
      hasFields_unroll t sub fts]
theorem hasVariant_unroll (t : Target) (sub : String → Ty) (name : String) : (k : Nat) →
    (vs : List (String × RecVTy)) → (v : Val) →
    (HasRecVariant t (fun n => Has t (sub n)) name k vs v
      ↔ HasVariant t name k (unrollVariants sub vs) v)
  | k, [], v => by rw [HasRecVariant, unrollVariants, HasVariant]
  | k, (vn, vt) :: vs, v => by
    simp only [HasRecVariant, unrollVariants, HasVariant, hasPayload_unroll t sub name _ vn vt,
      hasVariant_unroll t sub name (k + 1) vs]
theorem hasPayload_unroll (t : Target) (sub : String → Ty) (name : String) (i : UInt32)
    (vn : String) : (vt : RecVTy) → (v : Val) →
    (HasRecPayload t (fun n => Has t (sub n)) name i vn vt v
      ↔ HasPayload t name i vn (unrollPayload sub vt) v)
  | .unit, v => by rw [HasRecPayload, unrollPayload, HasPayload]
  | .newtype T, v => by simp only [HasRecPayload, unrollPayload, HasPayload, has_unroll t sub T]
  | .tuple Ts, v => by simp only [HasRecPayload, unrollPayload, HasPayload, hasAll_unroll t sub Ts]
  | .struct fs, v => by
    simp only [HasRecPayload, unrollPayload, HasPayload, hasFields_unroll t sub fs]
end

mutual
theorem supported_unroll {sub : String → Ty} (h : ∀ n, Supported (sub n)) : (T : RecTy) →
    RecSupported T → Supported (unroll sub T)
  | .leaf ty, hT => by rw [unroll]; exact hT
  | .named n, _ => by rw [unroll]; exact h n
  | .option T, hT => by rw [unroll, Supported]; exact supported_unroll h T hT
  | .newtypeStruct _ T, hT => by rw [unroll, Supported]; exact supported_unroll h T hT
  | .seq T, hT => by rw [unroll, Supported]; exact supported_unroll h T hT
  | .tuple Ts, hT => by rw [unroll, Supported]; exact allSupported_unroll h Ts hT
  | .tupleStruct _ Ts, hT => by rw [unroll, Supported]; exact allSupported_unroll h Ts hT
  | .map kt T, hT => by
    rw [RecSupported] at hT
    rw [unroll, Supported]; exact ⟨hT.1, supported_unroll h T hT.2⟩
  | .struct _ fs, hT => by rw [unroll, Supported]; exact fieldsSupported_unroll h fs hT
  | .enum _ vs, hT => by
    rw [RecSupported] at hT
    rw [unroll, Supported]
    obtain ⟨h1, h2⟩ := variantsSupported_unroll h vs hT.2
    exact ⟨h2 ▸ hT.1, h1⟩
theorem allSupported_unroll {sub : String → Ty} (h : ∀ n, Supported (sub n)) :
    (Ts : List RecTy) → AllRecSupported Ts → AllSupported (unrollAll sub Ts)
  | [], _ => by rw [unrollAll]; trivial
  | T :: Ts, hT => by
    rw [AllRecSupported] at hT
    rw [unrollAll, AllSupported]
    exact ⟨supported_unroll h T hT.1, allSupported_unroll h Ts hT.2⟩
theorem fieldsSupported_unroll {sub : String → Ty} (h : ∀ n, Supported (sub n)) :
    (fs : List (String × RecTy)) → FieldsRecSupported fs → FieldsSupported (unrollFields sub fs)
  | [], _ => by rw [unrollFields]; trivial
  | (_, T) :: fs, hT => by
    rw [FieldsRecSupported] at hT
    rw [unrollFields, FieldsSupported]
    exact ⟨supported_unroll h T hT.1, fieldsSupported_unroll h fs hT.2⟩
theorem variantsSupported_unroll {sub : String → Ty} (h : ∀ n, Supported (sub n)) :
    (vs : List (String × RecVTy)) → VariantsRecSupported vs →
    VariantsSupported (unrollVariants sub vs) ∧ vs.length = (unrollVariants sub vs).length
  | [], _ => by rw [unrollVariants]; exact ⟨trivial, rfl⟩
  | (_, vt) :: vs, hT => by
    rw [VariantsRecSupported] at hT
    obtain ⟨h1, h2⟩ := variantsSupported_unroll h vs hT.2
    rw [unrollVariants, VariantsSupported, List.length_cons, List.length_cons, h2]
    exact ⟨⟨payloadSupported_unroll h vt hT.1, h1⟩, rfl⟩
theorem payloadSupported_unroll {sub : String → Ty} (h : ∀ n, Supported (sub n)) :
    (vt : RecVTy) → PayloadRecSupported vt → PayloadSupported (unrollPayload sub vt)
  | .unit, _ => by rw [unrollPayload]; trivial
  | .newtype T, hT => by rw [unrollPayload, PayloadSupported]; exact supported_unroll h T hT
  | .tuple Ts, hT => by rw [unrollPayload, PayloadSupported]; exact allSupported_unroll h Ts hT
  | .struct fs, hT => by
    rw [unrollPayload, PayloadSupported]; exact fieldsSupported_unroll h fs hT
end

theorem supported_named {defs : Defs} (h : ∀ n, RecSupported (defs n)) :
    (d : Nat) → (n : String) → Supported (unrollNamed defs d n)
  | 0, _ => by rw [unrollNamed, empty, Supported]; exact ⟨by simp, trivial⟩
  | d + 1, n => supported_unroll (supported_named h d) (defs n) (h n)

theorem has_named (t : Target) (defs : Defs) :
    (d : Nat) → (n : String) → (v : Val) → (Deep t defs d n v ↔ Has t (unrollNamed defs d n) v)
  | 0, n, v => by rw [Deep, unrollNamed, empty, Has, HasVariant]
  | d + 1, n, v => by
    rw [Deep, unrollNamed, ← has_unroll]
    have : Deep t defs d = fun n => Has t (unrollNamed defs d n) := by
      funext n v
      exact propext (has_named t defs d n v)
    rw [this]

/-! ## Relations between decoders -/

/-- A relation between decoders that sequencing respects. -/
structure Cong (R : ∀ {α : Type}, Prog DeErr α → Prog DeErr α → Prop) : Prop where
  refl : ∀ {α : Type} (p : Prog DeErr α), R p p
  bind : ∀ {α β : Type} {p q : Prog DeErr α} {f g : α → Prog DeErr β}, R p q →
    (∀ a, R (f a) (g a)) → R (Prog.bind p f) (Prog.bind q g)

theorem Cong.wrap {R : ∀ {α : Type}, Prog DeErr α → Prog DeErr α → Prop} (hR : Cong @R)
    {α β : Type} {p q : Prog DeErr α} (h : R p q) (f : α → β) :
    R (p >>= fun a => pure (f a)) (q >>= fun a => pure (f a)) := hR.bind h fun _ => hR.refl _

theorem Cong.times {R : ∀ {α : Type}, Prog DeErr α → Prog DeErr α → Prop} (hR : Cong @R)
    {α : Type} {p q : Prog DeErr α} (h : R p q) (n : Nat) : R (times n p) (times n q) := by
  induction n with
  | zero => exact hR.refl _
  | succ n ih => exact hR.bind h fun _ => hR.bind ih fun _ => hR.refl _

section
variable {R : ∀ {α : Type}, Prog DeErr α → Prog DeErr α → Prop} (hR : Cong @R) (t : Target)
  {call call' : String → Prog DeErr Val} (h : ∀ n, R (call n) (call' n))
include hR h

mutual
theorem cong_body : (T : RecTy) → R (deBody t call T) (deBody t call' T)
  | .leaf ty => by rw [deBody, deBody]; exact hR.refl _
  | .named n => by rw [deBody, deBody]; exact h n
  | .option T => by
    rw [deBody, deBody]
    refine hR.bind (hR.refl _) fun b => ?_
    split
    · exact hR.wrap (cong_body T) _
    · exact hR.refl _
  | .newtypeStruct _ T => by rw [deBody, deBody]; exact hR.wrap (cong_body T) _
  | .seq T => by
    rw [deBody, deBody]
    exact hR.bind (hR.refl _) fun c => hR.wrap (hR.times (cong_body T) _) _
  | .tuple Ts => by rw [deBody, deBody]; exact hR.wrap (cong_all Ts) _
  | .tupleStruct _ Ts => by rw [deBody, deBody]; exact hR.wrap (cong_all Ts) _
  | .map kt T => by
    rw [deBody, deBody]
    exact hR.bind (hR.refl _) fun c => hR.wrap (hR.times
      (hR.bind (hR.refl _) fun k => hR.wrap (cong_body T) _) _) _
  | .struct _ fs => by rw [deBody, deBody]; exact hR.wrap (cong_fields fs) _
  | .enum name vs => by
    rw [deBody, deBody]
    exact hR.bind (hR.refl _) fun i => cong_variant name i _ vs
theorem cong_all : (Ts : List RecTy) → R (deAll t call Ts) (deAll t call' Ts)
  | [] => by rw [deAll, deAll]; exact hR.refl _
  | T :: Ts => by
    rw [deAll, deAll]
    exact hR.bind (cong_body T) fun _ => hR.wrap (cong_all Ts) _
theorem cong_fields : (fs : List (String × RecTy)) →
    R (deFields t call fs) (deFields t call' fs)
  | [] => by rw [deFields, deFields]; exact hR.refl _
  | (n, T) :: fs => by
    rw [deFields, deFields]
    exact hR.bind (cong_body T) fun _ => hR.wrap (cong_fields fs) _
theorem cong_variant (name : String) (i : UInt16) : (j : Nat) → (vs : List (String × RecVTy)) →
    R (deVariant t call name i j vs) (deVariant t call' name i j vs)
  | j, [] => by rw [deVariant, deVariant]; exact hR.refl _
  | j + 1, (_, _) :: vs => by rw [deVariant, deVariant]; exact cong_variant name i j vs
  | 0, (vn, vt) :: vs => by rw [deVariant, deVariant]; exact cong_payload name _ vn vt
theorem cong_payload (name : String) (i : UInt32) (vn : String) : (vt : RecVTy) →
    R (dePayload t call name i vn vt) (dePayload t call' name i vn vt)
  | .unit => by rw [dePayload, dePayload]; exact hR.refl _
  | .newtype T => by rw [dePayload, dePayload]; exact hR.wrap (cong_body T) _
  | .tuple Ts => by rw [dePayload, dePayload]; exact hR.wrap (cong_all Ts) _
  | .struct fs => by rw [dePayload, dePayload]; exact hR.wrap (cong_fields fs) _
end
end

/-- The two decoders succeed on the same inputs with the same results. -/
def SameOk (t : Target) {α : Type} (p q : Prog DeErr α) : Prop :=
  ∀ fin bs a r, Prog.exec t fin p bs = .ok (a, r) ↔ Prog.exec t fin q bs = .ok (a, r)

theorem next_ok_iff {α β : Type} (o : Outcome DeErr (α × List UInt8))
    (f : α → List UInt8 → Outcome DeErr (β × List UInt8)) (b : β) (r : List UInt8) :
    Prog.next o f = .ok (b, r) ↔ ∃ a r', o = .ok (a, r') ∧ f a r' = .ok (b, r) := by
  cases o with
  | ok x =>
    obtain ⟨a, r'⟩ := x
    simp only [Prog.next_ok, Outcome.ok.injEq, Prod.mk.injEq]
    constructor
    · intro h; exact ⟨a, r', ⟨rfl, rfl⟩, h⟩
    · rintro ⟨a', r'', ⟨rfl, rfl⟩, h⟩; exact h
  | err e => simp
  | panic q => simp

theorem cong_sameOk (t : Target) : Cong (fun {_} p q => SameOk t p q) where
  refl _ _ _ _ _ := Iff.rfl
  bind := by
    intro α β p q f g hp hf fin bs b r
    rw [Prog.exec_bind, Prog.exec_bind, next_ok_iff, next_ok_iff]
    constructor
    · rintro ⟨a, r', h1, h2⟩; exact ⟨a, r', (hp ..).mp h1, (hf ..).mp h2⟩
    · rintro ⟨a, r', h1, h2⟩; exact ⟨a, r', (hp ..).mpr h1, (hf ..).mpr h2⟩

/-- The first decoder does what the second does or runs out of stack. -/
def Below (t : Target) {α : Type} (p q : Prog DeErr α) : Prop :=
  ∀ fin bs, Prog.exec t fin p bs = Prog.exec t fin q bs ∨
    Prog.exec t fin p bs = .panic .stackOverflow

theorem cong_below (t : Target) : Cong (fun {_} p q => Below t p q) where
  refl _ _ _ := .inl rfl
  bind := by
    intro α β p q f g hp hf fin bs
    rw [Prog.exec_bind, Prog.exec_bind]
    rcases hp fin bs with h | h
    · rw [h]
      cases Prog.exec t fin q bs with
      | ok x => exact hf x.1 fin x.2
      | err e => exact .inl rfl
      | panic q => exact .inl rfl
    · rw [h]; exact .inr rfl

/-- The named decoder succeeds as the unrolled type does. -/
theorem sameOk_named (t : Target) (defs : Defs) : (d : Nat) → (n : String) →
    SameOk t (deNamed t defs d n) (de t (unrollNamed defs d n))
  | 0, n => by
    intro fin bs a r
    rw [deNamed, unrollNamed, empty, de]
    constructor
    · intro h; simp [Prog.exec] at h
    · intro h
      rw [Prog.bind_eq, Prog.exec_bind, next_ok_iff] at h
      obtain ⟨i, r', -, h⟩ := h
      rw [De.deVariant] at h
      simp [Prog.exec] at h
  | d + 1, n => by
    rw [deNamed, unrollNamed, ← deBody_unroll]
    exact cong_body (cong_sameOk t) t (sameOk_named t defs d) (defs n)

/-- A deeper stack does the same unless the smaller one is exhausted. -/
theorem below_succ (t : Target) (defs : Defs) : (d : Nat) → (n : String) →
    Below t (deNamed t defs d n) (deNamed t defs (d + 1) n)
  | 0, n => fun fin bs => .inr (by rw [deNamed]; rfl)
  | d + 1, n => by
    rw [deNamed, deNamed]
    exact cong_body (cong_below t) t (below_succ t defs d) (defs n)

theorem below_add (t : Target) (defs : Defs) (d k : Nat) (n : String) :
    Below t (deNamed t defs d n) (deNamed t defs (d + k) n) := by
  induction k with
  | zero => exact fun _ _ => .inl rfl
  | succ k ih =>
    intro fin bs
    rcases ih fin bs with h | h
    · rw [h]; exact below_succ t defs (d + k) n fin bs
    · exact .inr h

theorem below_le (t : Target) (defs : Defs) {d e : Nat} (h : d ≤ e) (n : String) :
    Below t (deNamed t defs d n) (deNamed t defs e n) := by
  have := below_add t defs d (e - d) n
  rwa [show d + (e - d) = e by omega] at this

/-! ## Predicates -/

mutual
theorem closed_body {t : Target} {P : ∀ {α : Type}, Prog DeErr α → Prop} (hP : Closed t @P)
    (htodo : P (.done (.panic .todo) : Prog DeErr Val)) {call : String → Prog DeErr Val}
    (hc : ∀ n, P (call n)) : (T : RecTy) → P (deBody t call T)
  | .leaf ty => by rw [deBody]; exact closed_de hP ty (.inr htodo)
  | .named n => by rw [deBody]; exact hc n
  | .option T => by
    rw [deBody]
    refine hP.bind hP.bool fun b => ?_
    split
    · exact hP.wrap (closed_body hP htodo hc T) _
    · exact hP.ok _
  | .newtypeStruct _ T => by rw [deBody]; exact hP.wrap (closed_body hP htodo hc T) _
  | .seq T => by
    rw [deBody]
    exact hP.bind hP.u64 fun _ => hP.wrap (hP.times (closed_body hP htodo hc T) _) _
  | .tuple Ts => by rw [deBody]; exact hP.wrap (closed_all hP htodo hc Ts) _
  | .tupleStruct _ Ts => by rw [deBody]; exact hP.wrap (closed_all hP htodo hc Ts) _
  | .map kt T => by
    rw [deBody]
    exact hP.bind hP.u64 fun _ => hP.wrap (hP.times (hP.bind (closed_de hP kt (.inr htodo))
      fun _ => hP.wrap (closed_body hP htodo hc T) _) _) _
  | .struct _ fs => by rw [deBody]; exact hP.wrap (closed_fields hP htodo hc fs) _
  | .enum name vs => by
    rw [deBody]
    exact hP.bind hP.u16 fun i => closed_variant hP htodo hc name i _ vs
theorem closed_all {t : Target} {P : ∀ {α : Type}, Prog DeErr α → Prop} (hP : Closed t @P)
    (htodo : P (.done (.panic .todo) : Prog DeErr Val)) {call : String → Prog DeErr Val}
    (hc : ∀ n, P (call n)) : (Ts : List RecTy) → P (deAll t call Ts)
  | [] => by rw [deAll]; exact hP.ok _
  | T :: Ts => by
    rw [deAll]
    exact hP.bind (closed_body hP htodo hc T) fun _ => hP.wrap (closed_all hP htodo hc Ts) _
theorem closed_fields {t : Target} {P : ∀ {α : Type}, Prog DeErr α → Prop} (hP : Closed t @P)
    (htodo : P (.done (.panic .todo) : Prog DeErr Val)) {call : String → Prog DeErr Val}
    (hc : ∀ n, P (call n)) : (fs : List (String × RecTy)) → P (deFields t call fs)
  | [] => by rw [deFields]; exact hP.ok _
  | (_, T) :: fs => by
    rw [deFields]
    exact hP.bind (closed_body hP htodo hc T) fun _ => hP.wrap (closed_fields hP htodo hc fs) _
theorem closed_variant {t : Target} {P : ∀ {α : Type}, Prog DeErr α → Prop} (hP : Closed t @P)
    (htodo : P (.done (.panic .todo) : Prog DeErr Val)) {call : String → Prog DeErr Val}
    (hc : ∀ n, P (call n)) (name : String) (i : UInt16) : (j : Nat) →
    (vs : List (String × RecVTy)) → P (deVariant t call name i j vs)
  | _, [] => by rw [deVariant]; exact hP.err _
  | j + 1, _ :: vs => by rw [deVariant]; exact closed_variant hP htodo hc name i j vs
  | 0, (vn, vt) :: _ => by rw [deVariant]; exact closed_payload hP htodo hc name _ vn vt
theorem closed_payload {t : Target} {P : ∀ {α : Type}, Prog DeErr α → Prop} (hP : Closed t @P)
    (htodo : P (.done (.panic .todo) : Prog DeErr Val)) {call : String → Prog DeErr Val}
    (hc : ∀ n, P (call n)) (name : String) (i : UInt32) (vn : String) : (vt : RecVTy) →
    P (dePayload t call name i vn vt)
  | .unit => by rw [dePayload]; exact hP.ok _
  | .newtype T => by rw [dePayload]; exact hP.wrap (closed_body hP htodo hc T) _
  | .tuple Ts => by rw [dePayload]; exact hP.wrap (closed_all hP htodo hc Ts) _
  | .struct fs => by rw [dePayload]; exact hP.wrap (closed_fields hP htodo hc fs) _
end

theorem strict_named {t : Target} (ht : t.ptr = .w64) (defs : Defs) : (d : Nat) → (n : String) →
    Prog.Strict orRead (deNamed t defs d n)
  | 0, _ => by rw [deNamed]; trivial
  | d + 1, n => by
    rw [deNamed]
    exact closed_body (closed_strict ht) trivial (strict_named ht defs d) (defs n)

theorem allocLe_named (t : Target) (defs : Defs) : (d : Nat) → (n : String) →
    Prog.AllocLe 4096 (deNamed t defs d n)
  | 0, _ => by rw [deNamed]; trivial
  | d + 1, n => by
    rw [deNamed]
    exact closed_body (closed_allocLe t) trivial (allocLe_named t defs d) (defs n)

/-! ## Stack and input length -/

theorem exec_length {ε α : Type} (t : Target) (fin : Ending) (p : Prog ε α) (bs : List UInt8)
    (a : α) (r : List UInt8) (h : Prog.exec t fin p bs = .ok (a, r)) : r.length ≤ bs.length := by
  induction p generalizing bs with
  | done o =>
    cases o <;> simp [Prog.exec] at h
    rw [h.2]
    exact Nat.le_refl _
  | readExact n e k ih =>
    simp only [Prog.exec] at h
    split at h
    · have := ih _ _ h; rw [List.length_drop] at this; omega
    · simp at h
  | takeToEnd n e k ih =>
    simp only [Prog.exec] at h
    split at h
    · have := ih _ _ h; rw [List.length_drop] at this; omega
    · cases fin
      · have := ih _ _ h; rw [List.length_nil] at this; omega
      · simp at h
  | alloc n k ih =>
    simp only [Prog.exec] at h
    split at h
    · simp at h
    · exact ih _ h

/-- The stack suffices on inputs of at most `L` bytes. -/
def Fine (t : Target) (L : Nat) {α : Type} (p : Prog DeErr α) : Prop :=
  ∀ fin bs, bs.length ≤ L → Prog.exec t fin p bs ≠ .panic .stackOverflow

theorem Fine.bind {t : Target} {L : Nat} {α β : Type} {p : Prog DeErr α} {f : α → Prog DeErr β}
    (hp : Fine t L p) (hf : ∀ a, Fine t L (f a)) : Fine t L (Prog.bind p f) := by
  intro fin bs hl
  rw [Prog.exec_bind]
  cases h : Prog.exec t fin p bs with
  | ok x => exact hf x.1 fin x.2 (Nat.le_trans (exec_length t fin p bs x.1 x.2 h) hl)
  | err e => simp
  | panic q =>
    have := hp fin bs hl
    rw [h] at this
    simpa using this

/-- After a decoder that consumes something, less input is left. -/
theorem Fine.after {t : Target} {L : Nat} {α β : Type} {p : Prog DeErr α} {f : α → Prog DeErr β}
    (hp : Fine t L p) (hc : Prog.Yields t p fun _ n => 1 ≤ n)
    (hf : ∀ a L', L' < L → Fine t L' (f a)) : Fine t L (Prog.bind p f) := by
  intro fin bs hl
  rw [Prog.exec_bind]
  cases h : Prog.exec t fin p bs with
  | ok x =>
    obtain ⟨n, h1, h2⟩ := hc fin bs x.1 x.2 h
    exact hf x.1 x.2.length (by omega) fin x.2 (Nat.le_refl _)
  | err e => simp
  | panic q =>
    have := hp fin bs hl
    rw [h] at this
    simpa using this

theorem fine_total {t : Target} {α : Type} {p : Prog DeErr α} (h : Prog.Total t p) (L : Nat) :
    Fine t L p := by
  intro fin bs _ hx
  have := h.exec fin bs
  rw [hx] at this
  exact this

theorem closed_fine {t : Target} (hm : 4096 ≤ t.memLimit) (L : Nat) :
    Closed t (fun {_} p => Fine t L p) where
  ok a := fine_total (p := .done (.ok a)) trivial L
  err e := fine_total (p := .done (.err e)) trivial L
  bind hp hf := Fine.bind hp hf
  read n _ := fine_total (p := readBytes n) (fun _ => trivial) L
  u16 := fine_total ((total_u16 t).mapErr orRead) L
  u32 := fine_total ((total_u32 t).mapErr orRead) L
  u64 := fine_total ((total_u64 t).mapErr orRead) L
  string := fine_total (total_string t) L
  byteBuf := fine_total (total_byteBuf t hm) L

theorem one_le_varintLen (w v : Nat) (hw : 8 ≤ w) : 1 ≤ varintLen w v := by
  rw [varintLen, groups]
  split <;> omega

theorem consumes_u16 (t : Target) : Prog.Yields t (io decodeU16) fun _ n => 1 ≤ n :=
  (yields_u16 t).mono fun v _ h => Nat.le_trans (one_le_varintLen 16 v.toNat (by omega)) h

theorem consumes_u64 (t : Target) : Prog.Yields t (io decodeU64) fun _ n => 1 ≤ n :=
  (yields_u64 t).mono fun v _ h => Nat.le_trans (one_le_varintLen 64 v.toNat (by omega)) h

theorem consumes_bool (t : Target) : Prog.Yields t deBool fun _ n => 1 ≤ n := by
  refine Prog.Yields.bind (yields_read t 1) fun b n hn => ?_
  split
  · exact Prog.Yields.done_ok (by omega)
  · exact Prog.Yields.done_ok (by omega)
  · exact Prog.Yields.done_err

theorem fine_todo (t : Target) (L : Nat) :
    Fine t L (.done (.panic .todo) : Prog DeErr Val) := by
  intro fin bs _ h
  simp [Prog.exec] at h

mutual
theorem fine_guarded {t : Target} (hm : 4096 ≤ t.memLimit) {L : Nat}
    {call : String → Prog DeErr Val} (hc : ∀ n L', L' < L → Fine t L' (call n)) :
    (T : RecTy) → Guarded T → Fine t L (deBody t call T)
  | .leaf ty, _ => by rw [deBody]; exact closed_de (closed_fine hm L) ty (.inr (fine_todo t L))
  | .named n, h => absurd h (by simp [Guarded])
  | .option T, _ => by
    rw [deBody]
    refine Fine.after (closed_fine hm L).bool (consumes_bool t) fun b L' hl => ?_
    split
    · exact (closed_fine hm L').wrap
        (closed_body (closed_fine hm L') (fine_todo t L') (fun n => hc n L' hl) T) _
    · exact (closed_fine hm L').ok _
  | .newtypeStruct _ T, h => by
    rw [deBody]; exact (closed_fine hm L).wrap (fine_guarded hm hc T h) _
  | .seq T, _ => by
    rw [deBody]
    refine Fine.after (closed_fine hm L).u64 (consumes_u64 t) fun c L' hl => ?_
    exact (closed_fine hm L').wrap ((closed_fine hm L').times
      (closed_body (closed_fine hm L') (fine_todo t L') (fun n => hc n L' hl) T) _) _
  | .tuple Ts, h => by rw [deBody]; exact (closed_fine hm L).wrap (fine_allGuarded hm hc Ts h) _
  | .tupleStruct _ Ts, h => by
    rw [deBody]; exact (closed_fine hm L).wrap (fine_allGuarded hm hc Ts h) _
  | .map kt T, _ => by
    rw [deBody]
    refine Fine.after (closed_fine hm L).u64 (consumes_u64 t) fun c L' hl => ?_
    exact (closed_fine hm L').wrap ((closed_fine hm L').times
      ((closed_fine hm L').bind (closed_de (closed_fine hm L') kt (.inr (fine_todo t L')))
        fun _ => (closed_fine hm L').wrap
          (closed_body (closed_fine hm L') (fine_todo t L') (fun n => hc n L' hl) T) _) _) _
  | .struct _ fs, h => by
    rw [deBody]; exact (closed_fine hm L).wrap (fine_fieldsGuarded hm hc fs h) _
  | .enum name vs, _ => by
    rw [deBody]
    refine Fine.after (closed_fine hm L).u16 (consumes_u16 t) fun i L' hl => ?_
    exact closed_variant (closed_fine hm L') (fine_todo t L') (fun n => hc n L' hl) name i _ vs
theorem fine_allGuarded {t : Target} (hm : 4096 ≤ t.memLimit) {L : Nat}
    {call : String → Prog DeErr Val} (hc : ∀ n L', L' < L → Fine t L' (call n)) :
    (Ts : List RecTy) → AllGuarded Ts → Fine t L (deAll t call Ts)
  | [], _ => by rw [deAll]; exact (closed_fine hm L).ok _
  | T :: Ts, h => by
    rw [AllGuarded] at h
    rw [deAll]
    exact (closed_fine hm L).bind (fine_guarded hm hc T h.1) fun _ =>
      (closed_fine hm L).wrap (fine_allGuarded hm hc Ts h.2) _
theorem fine_fieldsGuarded {t : Target} (hm : 4096 ≤ t.memLimit) {L : Nat}
    {call : String → Prog DeErr Val} (hc : ∀ n L', L' < L → Fine t L' (call n)) :
    (fs : List (String × RecTy)) → FieldsGuarded fs → Fine t L (deFields t call fs)
  | [], _ => by rw [deFields]; exact (closed_fine hm L).ok _
  | (_, T) :: fs, h => by
    rw [FieldsGuarded] at h
    rw [deFields]
    exact (closed_fine hm L).bind (fine_guarded hm hc T h.1) fun _ =>
      (closed_fine hm L).wrap (fine_fieldsGuarded hm hc fs h.2) _
end

theorem fine_named {t : Target} (hm : 4096 ≤ t.memLimit) {defs : Defs}
    (hg : ∀ n, Guarded (defs n)) : (d L : Nat) → L < d → (n : String) →
    Fine t L (deNamed t defs d n)
  | 0, _, h, _ => absurd h (by omega)
  | d + 1, L, h, n => by
    rw [deNamed]
    exact fine_guarded hm (fun m L' hl => fine_named hm hg d L' (by omega) m) (defs n) (hg n)

/-! ## Headers -/

/-- On a writer that accepts everything, the call returns or runs out of stack. -/
def Alive (p : WProg IoErr) : Prop := p.exec.2 = .ok () ∨ p.exec.2 = .panic .stackOverflow

/-- On a writer that accepts everything, the call runs out of stack. -/
def Dead (p : WProg IoErr) : Prop := p.exec.2 = .panic .stackOverflow

theorem exec_andThen_snd (p q : WProg IoErr) : (p.andThen q).exec.2 = match p.exec.2 with
    | .ok () => q.exec.2
    | .err e => .err e
    | .panic k => .panic k := by
  induction p with
  | done o => rcases o with ⟨⟨⟩⟩ | e | k <;> rfl
  | writeAll bs f k ih => exact ih

theorem alive_andThen {p q : WProg IoErr} (hp : Alive p) (hq : Alive q) : Alive (p.andThen q) := by
  rw [Alive, exec_andThen_snd]
  rcases hp with h | h <;> rw [h]
  · exact hq
  · exact .inr rfl

theorem dead_left {p : WProg IoErr} (hp : Dead p) (q : WProg IoErr) : Dead (p.andThen q) := by
  rw [Dead, exec_andThen_snd, hp]

theorem dead_right {p q : WProg IoErr} (hp : Alive p) (hq : Dead q) : Dead (p.andThen q) := by
  rw [Dead, exec_andThen_snd]
  rcases hp with h | h <;> rw [h]
  exact hq

theorem alive_put (bs : List UInt8) : Alive (Derive.put bs) := .inl rfl

mutual
theorem serialize_ok : (h : Header) → h.serialize.exec.2 = .ok ()
  | .unit | .boolean | .uint8 | .uint16 | .uint32 | .uint64 | .int8 | .int16 | .int32 | .int64
  | .float32 | .float64 | .bigUInt | .bigInt | .bigDecimal | .string | .binary | .date
  | .dateTime => by rw [Header.serialize]; rfl
  | .optional h | .array h | .map h => by
    rw [Header.serialize, exec_andThen_snd]; exact serialize_ok h
  | .tuple hs | .enum hs => by
    rw [Header.serialize, exec_andThen_snd]
    simp only [Header.put, WProg.exec, WProg.skip]
    rw [exec_andThen_snd]
    exact serializeAll_ok hs
theorem serializeAll_ok : (hs : List Header) → (Header.serializeAll hs).exec.2 = .ok ()
  | [] => by rw [Header.serializeAll]; rfl
  | h :: hs => by
    rw [Header.serializeAll, exec_andThen_snd, serialize_ok h]; exact serializeAll_ok hs
end

mutual
theorem alive_body {call : String → WProg IoErr} (hc : ∀ n, Alive (call n)) :
    (T : HdrTy) → Alive (headerBody call T)
  | .leaf h => by rw [headerBody]; exact .inl (serialize_ok h)
  | .named n => by rw [headerBody]; exact hc n
  | .option T | .vec T | .map T => by
    rw [headerBody]; exact alive_andThen (alive_put _) (alive_body hc T)
  | .struct Ts => by rw [headerBody]; exact alive_andThen (alive_put _) (alive_all hc Ts)
  | .enum vs => by rw [headerBody]; exact alive_andThen (alive_put _) (alive_variants hc vs)
theorem alive_all {call : String → WProg IoErr} (hc : ∀ n, Alive (call n)) :
    (Ts : List HdrTy) → Alive (headerAll call Ts)
  | [] => by rw [headerAll]; exact .inl rfl
  | T :: Ts => by rw [headerAll]; exact alive_andThen (alive_body hc T) (alive_all hc Ts)
theorem alive_variants {call : String → WProg IoErr} (hc : ∀ n, Alive (call n)) :
    (vs : List (List HdrTy)) → Alive (headerVariants call vs)
  | [] => by rw [headerVariants]; exact .inl rfl
  | v :: vs => by
    rw [headerVariants]; exact alive_andThen (alive_variant hc v) (alive_variants hc vs)
theorem alive_variant {call : String → WProg IoErr} (hc : ∀ n, Alive (call n)) :
    (v : List HdrTy) → Alive (headerVariant call v)
  | [] => by rw [headerVariant]; exact .inl rfl
  | [T] => by rw [headerVariant]; exact alive_andThen (alive_put _) (alive_body hc T)
  | T :: U :: Ts => by
    rw [headerVariant]
    exact alive_andThen (alive_put _) (alive_andThen (alive_body hc T) (alive_all hc (U :: Ts)))
end

theorem alive_named (defs : String → HdrTy) : (d : Nat) → (n : String) →
    Alive (headerNamed defs d n)
  | 0, _ => by rw [headerNamed]; exact .inr rfl
  | d + 1, n => by rw [headerNamed]; exact alive_body (alive_named defs d) (defs n)

mutual
theorem dead_body {call : String → WProg IoErr} (hc : ∀ n, Alive (call n)) {k : String}
    (hk : Dead (call k)) : (T : HdrTy) → Mentions k T → Dead (headerBody call T)
  | .leaf h, hm => absurd hm (by simp [Mentions])
  | .named n, hm => by rw [Mentions] at hm; rw [headerBody, hm]; exact hk
  | .option T, hm | .vec T, hm | .map T, hm => by
    rw [headerBody]; exact dead_right (alive_put _) (dead_body hc hk T (by rwa [Mentions] at hm))
  | .struct Ts, hm => by
    rw [headerBody]; exact dead_right (alive_put _) (dead_all hc hk Ts (by rwa [Mentions] at hm))
  | .enum vs, hm => by
    rw [headerBody]
    exact dead_right (alive_put _) (dead_variants hc hk vs (by rwa [Mentions] at hm))
theorem dead_all {call : String → WProg IoErr} (hc : ∀ n, Alive (call n)) {k : String}
    (hk : Dead (call k)) : (Ts : List HdrTy) → AnyMentions k Ts → Dead (headerAll call Ts)
  | [], hm => absurd hm (by simp [AnyMentions])
  | T :: Ts, hm => by
    rw [AnyMentions] at hm
    rw [headerAll]
    rcases hm with hm | hm
    · exact dead_left (dead_body hc hk T hm) _
    · exact dead_right (alive_body hc T) (dead_all hc hk Ts hm)
theorem dead_variants {call : String → WProg IoErr} (hc : ∀ n, Alive (call n)) {k : String}
    (hk : Dead (call k)) : (vs : List (List HdrTy)) → VariantMentions k vs →
    Dead (headerVariants call vs)
  | [], hm => absurd hm (by simp [VariantMentions])
  | v :: vs, hm => by
    rw [VariantMentions] at hm
    rw [headerVariants]
    rcases hm with hm | hm
    · exact dead_left (dead_variant hc hk v hm) _
    · exact dead_right (alive_variant hc v) (dead_variants hc hk vs hm)
theorem dead_variant {call : String → WProg IoErr} (hc : ∀ n, Alive (call n)) {k : String}
    (hk : Dead (call k)) : (v : List HdrTy) → AnyMentions k v → Dead (headerVariant call v)
  | [], hm => absurd hm (by simp [AnyMentions])
  | [T], hm => by
    rw [headerVariant]
    exact dead_right (alive_put _) (dead_body hc hk T (by simpa [AnyMentions] using hm))
  | T :: U :: Ts, hm => by
    rw [headerVariant]
    rw [AnyMentions] at hm
    refine dead_right (alive_put _) ?_
    rcases hm with hm | hm
    · exact dead_left (dead_body hc hk T hm) _
    · exact dead_right (alive_body hc T) (dead_all hc hk (U :: Ts) hm)
end

theorem dead_named {defs : String → HdrTy} {S : String → Prop}
    (hS : ∀ m, S m → ∃ k, S k ∧ Mentions k (defs m)) : (d : Nat) → (n : String) → S n →
    Dead (headerNamed defs d n)
  | 0, _, _ => by rw [headerNamed]; exact rfl
  | d + 1, n, h => by
    obtain ⟨k, h1, h2⟩ := hS n h
    rw [headerNamed]
    exact dead_body (alive_named defs d) (dead_named hS d k h1) (defs n) h2

theorem maps_put (bs : List UInt8) : (Derive.put bs).Maps id := ⟨fun _ => rfl, trivial⟩

mutual
theorem maps_body {call : String → WProg IoErr} (hc : ∀ n, (call n).Maps id) :
    (T : HdrTy) → (headerBody call T).Maps id
  | .leaf h => by rw [headerBody]; exact Header.maps_serialize h
  | .named n => by rw [headerBody]; exact hc n
  | .option T | .vec T | .map T => by rw [headerBody]; exact (maps_put _).andThen (maps_body hc T)
  | .struct Ts => by rw [headerBody]; exact (maps_put _).andThen (maps_all hc Ts)
  | .enum vs => by rw [headerBody]; exact (maps_put _).andThen (maps_variants hc vs)
theorem maps_all {call : String → WProg IoErr} (hc : ∀ n, (call n).Maps id) :
    (Ts : List HdrTy) → (headerAll call Ts).Maps id
  | [] => by rw [headerAll]; exact trivial
  | T :: Ts => by rw [headerAll]; exact (maps_body hc T).andThen (maps_all hc Ts)
theorem maps_variants {call : String → WProg IoErr} (hc : ∀ n, (call n).Maps id) :
    (vs : List (List HdrTy)) → (headerVariants call vs).Maps id
  | [] => by rw [headerVariants]; exact trivial
  | v :: vs => by rw [headerVariants]; exact (maps_variant hc v).andThen (maps_variants hc vs)
theorem maps_variant {call : String → WProg IoErr} (hc : ∀ n, (call n).Maps id) :
    (v : List HdrTy) → (headerVariant call v).Maps id
  | [] => by rw [headerVariant]; exact (maps_put _).andThen (maps_put _)
  | [T] => by rw [headerVariant]; exact (maps_put _).andThen (maps_body hc T)
  | T :: U :: Ts => by
    rw [headerVariant]
    exact (maps_put _).andThen ((maps_body hc T).andThen (maps_all hc (U :: Ts)))
end

theorem maps_named (defs : String → HdrTy) : (d : Nat) → (n : String) →
    (headerNamed defs d n).Maps id
  | 0, _ => by rw [headerNamed]; exact trivial
  | d + 1, n => by rw [headerNamed]; exact maps_body (maps_named defs d) (defs n)

/-! ### Headers that exist -/

theorem exec_tag (c : UInt8) (n : Nat) (h : n < 65536) {p : WProg IoErr} {bs : List UInt8}
    (hp : p.exec = (bs, .ok ())) :
    ((Derive.put (c :: Derive.countBytes n)).andThen p).exec = (c :: varint 16 n ++ bs, .ok ()) := by
  rw [WProg.exec_andThen_ok (Derive.exec_put _), hp, Derive.countBytes_eq _ h]

theorem exec_code (c : UInt8) {p : WProg IoErr} {bs : List UInt8} (hp : p.exec = (bs, .ok ())) :
    ((Derive.put [c]).andThen p).exec = (c :: bs, .ok ()) := by
  rw [WProg.exec_andThen_ok (Derive.exec_put _), hp]; rfl

theorem headersOf_length {H : String → Header → Prop} : {Ts : List HdrTy} → {hs : List Header} →
    HeadersOf H Ts hs → hs.length = Ts.length
  | [], hs, h => by rw [HeadersOf] at h; rw [h]; rfl
  | T :: Ts, hs, h => by
    rw [HeadersOf] at h
    obtain ⟨g, gs, rfl, -, h2⟩ := h
    rw [List.length_cons, headersOf_length h2, List.length_cons]

theorem variantHeadersOf_length {H : String → Header → Prop} : {vs : List (List HdrTy)} →
    {hs : List Header} → VariantHeadersOf H vs hs → hs.length = vs.length
  | [], hs, h => by rw [VariantHeadersOf] at h; rw [h]; rfl
  | v :: vs, hs, h => by
    rw [VariantHeadersOf] at h
    obtain ⟨g, gs, rfl, -, h2⟩ := h
    rw [List.length_cons, variantHeadersOf_length h2, List.length_cons]

/-- Each named type that has a header writes it. -/
abbrev Writes (call : String → WProg IoErr) (H : String → Header → Prop) : Prop :=
  ∀ n h, H n h → Countable h → (call n).exec = (headerWire h, .ok ())

mutual
theorem writes_body {call : String → WProg IoErr} {H : String → Header → Prop}
    (hc : Writes call H) : (T : HdrTy) → (g : Header) → HeaderOf H T g → Countable g →
    (headerBody call T).exec = (headerWire g, .ok ())
  | .leaf h, g, hg, hk => by
    rw [HeaderOf] at hg
    rw [headerBody, ← hg, Header.serialize_exec g hk]
  | .named n, g, hg, hk => by
    rw [HeaderOf] at hg
    rw [headerBody, hc n g hg hk]
  | .option T, g, hg, hk | .vec T, g, hg, hk | .map T, g, hg, hk => by
    rw [HeaderOf] at hg
    obtain ⟨h, rfl, hh⟩ := hg
    rw [Countable] at hk
    rw [headerBody, exec_code _ (writes_body hc T h hh hk)]
    rfl
  | .struct Ts, g, hg, hk => by
    rw [HeaderOf] at hg
    obtain ⟨hs, rfl, hh⟩ := hg
    rw [Countable] at hk
    rw [headerBody, ← headersOf_length hh, exec_tag _ _ hk.1 (writes_all hc Ts hs hh hk.2)]
    rfl
  | .enum vs, g, hg, hk => by
    rw [HeaderOf] at hg
    obtain ⟨hs, rfl, hh⟩ := hg
    rw [Countable] at hk
    rw [headerBody, ← variantHeadersOf_length hh,
      exec_tag _ _ hk.1 (writes_variants hc vs hs hh hk.2)]
    rfl
theorem writes_all {call : String → WProg IoErr} {H : String → Header → Prop}
    (hc : Writes call H) : (Ts : List HdrTy) → (gs : List Header) → HeadersOf H Ts gs →
    AllCountable gs → (headerAll call Ts).exec = (headersWire gs, .ok ())
  | [], gs, hg, _ => by
    rw [HeadersOf] at hg
    rw [headerAll, hg]
    rfl
  | T :: Ts, gs, hg, hk => by
    rw [HeadersOf] at hg
    obtain ⟨g, gs, rfl, h1, h2⟩ := hg
    rw [AllCountable] at hk
    rw [headerAll, WProg.exec_andThen_ok (writes_body hc T g h1 hk.1), writes_all hc Ts gs h2 hk.2]
    rfl
theorem writes_variants {call : String → WProg IoErr} {H : String → Header → Prop}
    (hc : Writes call H) : (vs : List (List HdrTy)) → (gs : List Header) →
    VariantHeadersOf H vs gs → AllCountable gs →
    (headerVariants call vs).exec = (headersWire gs, .ok ())
  | [], gs, hg, _ => by
    rw [VariantHeadersOf] at hg
    rw [headerVariants, hg]
    rfl
  | v :: vs, gs, hg, hk => by
    rw [VariantHeadersOf] at hg
    obtain ⟨g, gs, rfl, h1, h2⟩ := hg
    rw [AllCountable] at hk
    rw [headerVariants, WProg.exec_andThen_ok (writes_variant hc v g h1 hk.1),
      writes_variants hc vs gs h2 hk.2]
    rfl
theorem writes_variant {call : String → WProg IoErr} {H : String → Header → Prop}
    (hc : Writes call H) : (v : List HdrTy) → (g : Header) → VariantHeaderOf H v g →
    Countable g → (headerVariant call v).exec = (headerWire g, .ok ())
  | [], g, hg, _ => by
    rw [VariantHeaderOf] at hg
    rw [headerVariant, hg]
    rfl
  | [T], g, hg, hk => by
    rw [VariantHeaderOf] at hg
    rw [headerVariant, WProg.exec_andThen_ok (Derive.exec_put _), writes_body hc T g hg hk]
    rfl
  | T :: U :: Ts, g, hg, hk => by
    rw [VariantHeaderOf] at hg
    obtain ⟨h, hs, rfl, h1, h2⟩ := hg
    rw [Countable, AllCountable] at hk
    have hl : (h :: hs).length = (T :: U :: Ts).length := by
      rw [List.length_cons, headersOf_length h2]; rfl
    have hx : ((headerBody call T).andThen (headerAll call (U :: Ts))).exec
        = (headersWire (h :: hs), .ok ()) := by
      rw [WProg.exec_andThen_ok (writes_body hc T h h1 hk.2.1),
        writes_all hc (U :: Ts) hs h2 hk.2.2]
      rfl
    rw [headerVariant, ← hl, exec_tag _ _ hk.1 hx]
    rfl
end

theorem writes_named (defs : String → HdrTy) : (d : Nat) →
    Writes (headerNamed defs d) (HeaderWithin defs d)
  | 0, _, _, h, _ => absurd h (by simp [HeaderWithin])
  | d + 1, n, h, hh, hc => by
    rw [HeaderWithin] at hh
    rw [headerNamed]
    exact writes_body (writes_named defs d) (defs n) h hh hc

mutual
theorem headerOf_mono {H K : String → Header → Prop} (hk : ∀ n h, H n h → K n h) :
    (T : HdrTy) → (g : Header) → HeaderOf H T g → HeaderOf K T g
  | .leaf _, _, hg => by rw [HeaderOf] at hg ⊢; exact hg
  | .named n, g, hg => by rw [HeaderOf] at hg ⊢; exact hk n g hg
  | .option T, g, hg | .vec T, g, hg | .map T, g, hg => by
    rw [HeaderOf] at hg ⊢
    obtain ⟨h, rfl, hh⟩ := hg
    exact ⟨h, rfl, headerOf_mono hk T h hh⟩
  | .struct Ts, g, hg => by
    rw [HeaderOf] at hg ⊢
    obtain ⟨hs, rfl, hh⟩ := hg
    exact ⟨hs, rfl, headersOf_mono hk Ts hs hh⟩
  | .enum vs, g, hg => by
    rw [HeaderOf] at hg ⊢
    obtain ⟨hs, rfl, hh⟩ := hg
    exact ⟨hs, rfl, variantHeadersOf_mono hk vs hs hh⟩
theorem headersOf_mono {H K : String → Header → Prop} (hk : ∀ n h, H n h → K n h) :
    (Ts : List HdrTy) → (gs : List Header) → HeadersOf H Ts gs → HeadersOf K Ts gs
  | [], _, hg => by rw [HeadersOf] at hg ⊢; exact hg
  | T :: Ts, _, hg => by
    rw [HeadersOf] at hg ⊢
    obtain ⟨g, gs, rfl, h1, h2⟩ := hg
    exact ⟨g, gs, rfl, headerOf_mono hk T g h1, headersOf_mono hk Ts gs h2⟩
theorem variantHeadersOf_mono {H K : String → Header → Prop} (hk : ∀ n h, H n h → K n h) :
    (vs : List (List HdrTy)) → (gs : List Header) → VariantHeadersOf H vs gs →
    VariantHeadersOf K vs gs
  | [], _, hg => by rw [VariantHeadersOf] at hg ⊢; exact hg
  | v :: vs, _, hg => by
    rw [VariantHeadersOf] at hg ⊢
    obtain ⟨g, gs, rfl, h1, h2⟩ := hg
    exact ⟨g, gs, rfl, variantHeaderOf_mono hk v g h1, variantHeadersOf_mono hk vs gs h2⟩
theorem variantHeaderOf_mono {H K : String → Header → Prop} (hk : ∀ n h, H n h → K n h) :
    (v : List HdrTy) → (g : Header) → VariantHeaderOf H v g → VariantHeaderOf K v g
  | [], _, hg => by rw [VariantHeaderOf] at hg ⊢; exact hg
  | [T], g, hg => by
    rw [VariantHeaderOf] at hg ⊢
    exact headerOf_mono hk T g hg
  | T :: U :: Ts, g, hg => by
    rw [VariantHeaderOf] at hg ⊢
    obtain ⟨h, hs, rfl, h1, h2⟩ := hg
    exact ⟨h, hs, rfl, headerOf_mono hk T h h1, headersOf_mono hk (U :: Ts) hs h2⟩
end

theorem headerWithin_succ (defs : String → HdrTy) : (d : Nat) → (n : String) → (h : Header) →
    HeaderWithin defs d n h → HeaderWithin defs (d + 1) n h
  | 0, _, _, hh => absurd hh (by simp [HeaderWithin])
  | d + 1, n, h, hh => by
    rw [HeaderWithin] at hh
    rw [HeaderWithin]
    exact headerOf_mono (headerWithin_succ defs d) (defs n) h hh

theorem headerWithin_le {defs : String → HdrTy} {d e : Nat} (h : d ≤ e) {n : String} {g : Header}
    (hh : HeaderWithin defs d n g) : HeaderWithin defs e n g := by
  induction h with
  | refl => exact hh
  | step _ ih => exact headerWithin_succ defs _ n g ih

/-- Has a header at some depth. -/
abbrev HasHeader (defs : String → HdrTy) (n : String) : Prop := ∃ d h, HeaderWithin defs d n h

mutual
theorem finds {defs : String → HdrTy} : (T : HdrTy) → (∀ k, Mentions k T → HasHeader defs k) →
    ∃ d g, HeaderOf (HeaderWithin defs d) T g
  | .leaf h, _ => ⟨0, h, by rw [HeaderOf]⟩
  | .named n, hk => by
    obtain ⟨d, g, h⟩ := hk n (by rw [Mentions])
    exact ⟨d, g, by rw [HeaderOf]; exact h⟩
  | .option T, hk => by
    obtain ⟨d, g, h⟩ := finds T fun k hm => hk k (by rwa [Mentions])
    exact ⟨d, .optional g, by rw [HeaderOf]; exact ⟨g, rfl, h⟩⟩
  | .vec T, hk => by
    obtain ⟨d, g, h⟩ := finds T fun k hm => hk k (by rwa [Mentions])
    exact ⟨d, .array g, by rw [HeaderOf]; exact ⟨g, rfl, h⟩⟩
  | .map T, hk => by
    obtain ⟨d, g, h⟩ := finds T fun k hm => hk k (by rwa [Mentions])
    exact ⟨d, .map g, by rw [HeaderOf]; exact ⟨g, rfl, h⟩⟩
  | .struct Ts, hk => by
    obtain ⟨d, g, h⟩ := finds_all Ts fun k hm => hk k (by rwa [Mentions])
    exact ⟨d, .tuple g, by rw [HeaderOf]; exact ⟨g, rfl, h⟩⟩
  | .enum vs, hk => by
    obtain ⟨d, g, h⟩ := finds_variants vs fun k hm => hk k (by rwa [Mentions])
    exact ⟨d, .enum g, by rw [HeaderOf]; exact ⟨g, rfl, h⟩⟩
theorem finds_all {defs : String → HdrTy} : (Ts : List HdrTy) →
    (∀ k, AnyMentions k Ts → HasHeader defs k) → ∃ d gs, HeadersOf (HeaderWithin defs d) Ts gs
  | [], _ => ⟨0, [], by rw [HeadersOf]⟩
  | T :: Ts, hk => by
    obtain ⟨d, g, h⟩ := finds T fun k hm => hk k (by rw [AnyMentions]; exact .inl hm)
    obtain ⟨e, gs, hs⟩ := finds_all Ts fun k hm => hk k (by rw [AnyMentions]; exact .inr hm)
    refine ⟨max d e, g :: gs, ?_⟩
    rw [HeadersOf]
    exact ⟨g, gs, rfl, headerOf_mono (fun n h => headerWithin_le (Nat.le_max_left d e)) T g h,
      headersOf_mono (fun n h => headerWithin_le (Nat.le_max_right d e)) Ts gs hs⟩
theorem finds_variants {defs : String → HdrTy} : (vs : List (List HdrTy)) →
    (∀ k, VariantMentions k vs → HasHeader defs k) →
    ∃ d gs, VariantHeadersOf (HeaderWithin defs d) vs gs
  | [], _ => ⟨0, [], by rw [VariantHeadersOf]⟩
  | v :: vs, hk => by
    obtain ⟨d, g, h⟩ := finds_variant v fun k hm => hk k (by rw [VariantMentions]; exact .inl hm)
    obtain ⟨e, gs, hs⟩ := finds_variants vs fun k hm =>
      hk k (by rw [VariantMentions]; exact .inr hm)
    refine ⟨max d e, g :: gs, ?_⟩
    rw [VariantHeadersOf]
    exact ⟨g, gs, rfl,
      variantHeaderOf_mono (fun n h => headerWithin_le (Nat.le_max_left d e)) v g h,
      variantHeadersOf_mono (fun n h => headerWithin_le (Nat.le_max_right d e)) vs gs hs⟩
theorem finds_variant {defs : String → HdrTy} : (v : List HdrTy) →
    (∀ k, AnyMentions k v → HasHeader defs k) →
    ∃ d g, VariantHeaderOf (HeaderWithin defs d) v g
  | [], _ => ⟨0, .unit, by rw [VariantHeaderOf]⟩
  | [T], hk => by
    obtain ⟨d, g, h⟩ := finds T fun k hm => hk k (by rw [AnyMentions]; exact .inl hm)
    exact ⟨d, g, by rw [VariantHeaderOf]; exact h⟩
  | T :: U :: Ts, hk => by
    obtain ⟨d, g, h⟩ := finds T fun k hm => hk k (by rw [AnyMentions]; exact .inl hm)
    obtain ⟨e, gs, hs⟩ := finds_all (U :: Ts) fun k hm =>
      hk k (by rw [AnyMentions]; exact .inr hm)
    refine ⟨max d e, .tuple (g :: gs), ?_⟩
    rw [VariantHeaderOf]
    exact ⟨g, gs, rfl, headerOf_mono (fun n h => headerWithin_le (Nat.le_max_left d e)) T g h,
      headersOf_mono (fun n h => headerWithin_le (Nat.le_max_right d e)) (U :: Ts) gs hs⟩
end

/-- A type that is not endless has a header. -/
theorem header_or_endless (defs : String → HdrTy) (n : String) :
    HasHeader defs n ∨ Endless defs n := by
  by_cases h : HasHeader defs n
  · exact .inl h
  · refine .inr ⟨fun m => ¬ HasHeader defs m, h, fun m hm => ?_⟩
    by_cases hk : ∀ k, Mentions k (defs m) → HasHeader defs k
    · obtain ⟨d, g, hg⟩ := finds (defs m) hk
      exact absurd ⟨d + 1, g, by rw [HeaderWithin]; exact hg⟩ hm
    · simp only [Classical.not_forall] at hk
      obtain ⟨k, h1, h2⟩ := hk
      exact ⟨k, h2, h1⟩

/-! ### No finite header -/

mutual
theorem smaller {H : String → Header → Prop} {k : String} : (T : HdrTy) → Mentions k T →
    (g : Header) → HeaderOf H T g → ∃ h, H k h ∧ sizeOf h ≤ sizeOf g
  | .leaf _, hm, _, _ => absurd hm (by simp [Mentions])
  | .named n, hm, g, hg => by
    rw [Mentions] at hm
    rw [HeaderOf] at hg
    exact ⟨g, hm ▸ hg, Nat.le_refl _⟩
  | .option T, hm, g, hg | .vec T, hm, g, hg | .map T, hm, g, hg => by
    rw [Mentions] at hm
    rw [HeaderOf] at hg
    obtain ⟨h, rfl, hh⟩ := hg
    obtain ⟨h', h1, h2⟩ := smaller T hm h hh
    exact ⟨h', h1, by simp; omega⟩
  | .struct Ts, hm, g, hg => by
    rw [Mentions] at hm
    rw [HeaderOf] at hg
    obtain ⟨hs, rfl, hh⟩ := hg
    obtain ⟨h', h1, h2⟩ := smaller_all Ts hm hs hh
    exact ⟨h', h1, by simp; omega⟩
  | .enum vs, hm, g, hg => by
    rw [Mentions] at hm
    rw [HeaderOf] at hg
    obtain ⟨hs, rfl, hh⟩ := hg
    obtain ⟨h', h1, h2⟩ := smaller_variants vs hm hs hh
    exact ⟨h', h1, by simp; omega⟩
theorem smaller_all {H : String → Header → Prop} {k : String} : (Ts : List HdrTy) →
    AnyMentions k Ts → (gs : List Header) → HeadersOf H Ts gs →
    ∃ h, H k h ∧ sizeOf h < sizeOf gs
  | [], hm, _, _ => absurd hm (by simp [AnyMentions])
  | T :: Ts, hm, gs, hg => by
    rw [AnyMentions] at hm
    rw [HeadersOf] at hg
    obtain ⟨g, gs, rfl, h1, h2⟩ := hg
    rcases hm with hm | hm
    · obtain ⟨h', h3, h4⟩ := smaller T hm g h1
      exact ⟨h', h3, by simp; omega⟩
    · obtain ⟨h', h3, h4⟩ := smaller_all Ts hm gs h2
      exact ⟨h', h3, by simp; omega⟩
theorem smaller_variants {H : String → Header → Prop} {k : String} : (vs : List (List HdrTy)) →
    VariantMentions k vs → (gs : List Header) → VariantHeadersOf H vs gs →
    ∃ h, H k h ∧ sizeOf h < sizeOf gs
  | [], hm, _, _ => absurd hm (by simp [VariantMentions])
  | v :: vs, hm, gs, hg => by
    rw [VariantMentions] at hm
    rw [VariantHeadersOf] at hg
    obtain ⟨g, gs, rfl, h1, h2⟩ := hg
    rcases hm with hm | hm
    · obtain ⟨h', h3, h4⟩ := smaller_variant v hm g h1
      exact ⟨h', h3, by simp; omega⟩
    · obtain ⟨h', h3, h4⟩ := smaller_variants vs hm gs h2
      exact ⟨h', h3, by simp; omega⟩
theorem smaller_variant {H : String → Header → Prop} {k : String} : (v : List HdrTy) →
    AnyMentions k v → (g : Header) → VariantHeaderOf H v g → ∃ h, H k h ∧ sizeOf h ≤ sizeOf g
  | [], hm, _, _ => absurd hm (by simp [AnyMentions])
  | [T], hm, g, hg => by
    rw [VariantHeaderOf] at hg
    exact smaller T (by simpa [AnyMentions] using hm) g hg
  | T :: U :: Ts, hm, g, hg => by
    rw [VariantHeaderOf] at hg
    obtain ⟨h, hs, rfl, h1, h2⟩ := hg
    rw [AnyMentions] at hm
    rcases hm with hm | hm
    · obtain ⟨h', h3, h4⟩ := smaller T hm h h1
      exact ⟨h', h3, by simp; omega⟩
    · obtain ⟨h', h3, h4⟩ := smaller_all (U :: Ts) hm hs h2
      exact ⟨h', h3, by simp; omega⟩
end

theorem not_endless {defs : String → HdrTy} {S : String → Prop}
    (hS : ∀ m, S m → ∃ k, S k ∧ Mentions k (defs m)) : (d : Nat) → ∀ n h, HeaderWithin defs d n h →
    ¬ S n
  | 0, _, _, hh => absurd hh (by simp [HeaderWithin])
  | d + 1, n, h, hh => by
    intro hn
    rw [HeaderWithin] at hh
    obtain ⟨k, h1, h2⟩ := hS n hn
    obtain ⟨g, h3, -⟩ := smaller (defs n) h2 h hh
    exact not_endless hS d k g h3 h1

/-- The header of an item is strictly larger than those of the types it mentions. -/
theorem smaller_item {H : String → Header → Prop} {k : String} {T : HdrTy} (hi : IsItem T)
    (hm : Mentions k T) {g : Header} (hg : HeaderOf H T g) : ∃ h, H k h ∧ sizeOf h < sizeOf g := by
  cases T with
  | struct Ts =>
    rw [Mentions] at hm
    rw [HeaderOf] at hg
    obtain ⟨hs, rfl, hh⟩ := hg
    obtain ⟨h', h1, h2⟩ := smaller_all Ts hm hs hh
    exact ⟨h', h1, by simp; omega⟩
  | enum vs =>
    rw [Mentions] at hm
    rw [HeaderOf] at hg
    obtain ⟨hs, rfl, hh⟩ := hg
    obtain ⟨h', h1, h2⟩ := smaller_variants vs hm hs hh
    exact ⟨h', h1, by simp; omega⟩
  | _ => exact absurd hi (by simp [IsItem])

theorem no_header {defs : String → HdrTy} {S : String → Prop}
    (hS : ∀ m, S m → ∃ k, S k ∧ Mentions k (defs m)) (hi : ∀ m, IsItem (defs m))
    {H : String → Header → Prop} (hH : ∀ m g, H m g → HeaderOf H (defs m) g) :
    (N : Nat) → ∀ n g, sizeOf g ≤ N → S n → ¬ H n g
  | 0, n, g, hN, hn, h => by
    obtain ⟨k, -, h2⟩ := hS n hn
    obtain ⟨g', -, hl⟩ := smaller_item (hi n) h2 (hH n g h)
    omega
  | N + 1, n, g, hN, hn, h => by
    obtain ⟨k, h1, h2⟩ := hS n hn
    obtain ⟨g', h3, hl⟩ := smaller_item (hi n) h2 (hH n g h)
    exact no_header hS hi hH N k g' (by omega) h1 h3

end Dlhn.Rec
