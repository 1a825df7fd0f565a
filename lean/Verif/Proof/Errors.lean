import Verif.Spec.Errors
import Verif.Proof.DeGen
import Verif.Proof.BodyGen
import Verif.Proof.DeriveDeGen
/-! # Facts about the errors of decoders and encoders -/
namespace Dlhn

/-- Every error of the decoder satisfies `R`, and it succeeds on no input unless `S`. -/
def Prog.Outcomes {α : Type} (R : DeErr → Prop) (S : Prop) : Prog DeErr α → Prop
  | .done (.ok _) => S
  | .done (.err e) => R e
  | .done (.panic _) => True
  | .readExact _ f k => (∀ e, R (f e)) ∧ ∀ b, Outcomes R S (k b)
  | .takeToEnd _ f k => (∀ e, R (f e)) ∧ ∀ b, Outcomes R S (k b)
  | .alloc _ k => Outcomes R S k

namespace Prog.Outcomes

variable {α β : Type} {R R' : DeErr → Prop} {S S' : Prop}

theorem mono {p : Prog DeErr α} (h : Outcomes R S p) (hR : ∀ e, R e → R' e) (hS : S → S') :
    Outcomes R' S' p := by
  induction p with
  | done o =>
    cases o with
    | ok a => exact hS h
    | err e => exact hR _ h
    | panic q => trivial
  | readExact n f k ih => exact ⟨fun e => hR _ (h.1 e), fun b => ih b (h.2 b)⟩
  | takeToEnd n f k ih => exact ⟨fun e => hR _ (h.1 e), fun b => ih b (h.2 b)⟩
  | alloc n k ih => exact ih h

theorem bind {p : Prog DeErr α} {f : α → Prog DeErr β} (h : Outcomes R S p)
    (hf : S → ∀ a, Outcomes R S' (f a)) : Outcomes R S' (Prog.bind p f) := by
  induction p with
  | done o =>
    cases o with
    | ok a => exact hf h a
    | err e => exact h
    | panic q => trivial
  | readExact n f k ih => exact ⟨h.1, fun b => ih b (h.2 b)⟩
  | takeToEnd n f k ih => exact ⟨h.1, fun b => ih b (h.2 b)⟩
  | alloc n k ih => exact ih h

theorem wrap {p : Prog DeErr α} (h : Outcomes R S p) (f : α → β) :
    Outcomes R S (p >>= fun a => pure (f a)) := h.bind fun hs _ => hs

theorem exec {p : Prog DeErr α} (h : Outcomes R S p) (t : Target) (fin : Ending)
    (bs : List UInt8) : match Prog.exec t fin p bs with
      | .ok _ => S
      | .err e => R e
      | .panic _ => True := by
  induction p generalizing bs with
  | done o =>
    cases o with
    | ok a => exact h
    | err e => exact h
    | panic q => trivial
  | readExact n f k ih =>
    simp only [Prog.exec]
    by_cases hn : n ≤ bs.length
    · simp only [dif_pos hn]; exact ih _ (h.2 _) _
    · simp only [dif_neg hn]; exact h.1 _
  | takeToEnd n f k ih =>
    simp only [Prog.exec]
    by_cases hn : n ≤ bs.length
    · simp only [if_pos hn]; exact ih _ (h.2 _) _
    · simp only [if_neg hn]
      cases fin with
      | eof => exact ih _ (h.2 _) _
      | fail e => exact h.1 e
  | alloc n k ih =>
    rw [Prog.exec]
    cases t.allocate n with
    | some q => trivial
    | none => exact ih h _

theorem runScript {p : Prog DeErr α} (h : Outcomes R S p) (t : Target) (size : Nat → Nat)
    (s : Script) : match Prog.runScript t size p s with
      | .ok _ => S
      | .err e => R e
      | .panic _ => True := by
  induction p generalizing s with
  | done o =>
    cases o with
    | ok a => exact h
    | err e => exact h
    | panic q => trivial
  | readExact n f k ih =>
    rw [Prog.runScript]
    cases Script.readExact n [] s with
    | ok bs s' =>
      by_cases hn : n = bs.length
      · simp only [dif_pos hn]; exact ih _ (h.2 _) _
      · simp only [dif_neg hn]; exact h.1 _
    | err e => exact h.1 e
  | takeToEnd n f k ih =>
    rw [Prog.runScript]
    cases Script.takeToEnd size 0 n [] s with
    | ok bs s' => exact ih _ (h.2 _) _
    | err e => exact h.1 e
  | alloc n k ih =>
    rw [Prog.runScript]
    cases t.allocate n with
    | some q => trivial
    | none => exact ih h _

/-! ## The primitive decoders -/

open De PrefixVarint

variable (hr : R .read)
include hr

theorem readBytes (n : Nat) : Outcomes R True (De.readBytes n) := ⟨fun _ => hr, fun _ => trivial⟩

omit hr in
/-- A decoder without errors of its own. -/
def _root_.Dlhn.Prog.Quiet {ε : Type} : Prog ε α → Prop
  | .done (.err _) => False
  | .done _ => True
  | .readExact _ _ k => ∀ b, Quiet (k b)
  | .takeToEnd _ _ k => ∀ b, Quiet (k b)
  | .alloc _ k => Quiet k

omit hr in
theorem _root_.Dlhn.Prog.Quiet.bind {ε : Type} {p : Prog ε α} {f : α → Prog ε β} (h : p.Quiet)
    (hf : ∀ a, (f a).Quiet) : (Prog.bind p f).Quiet := by
  induction p with
  | done o =>
    cases o with
    | ok a => exact hf a
    | err e => exact h.elim
    | panic q => trivial
  | readExact n f k ih => exact fun b => ih b (h b)
  | takeToEnd n f k ih => exact fun b => ih b (h b)
  | alloc n k ih => exact ih h

theorem of_quiet {p : Prog IoErr α} (h : p.Quiet) : Outcomes R True (io p) := by
  rw [io]
  induction p with
  | done o =>
    cases o with
    | ok a => trivial
    | err e => exact h.elim
    | panic q => trivial
  | readExact n f k ih => exact ⟨fun _ => hr, fun b => ih b (h b)⟩
  | takeToEnd n f k ih => exact ⟨fun _ => hr, fun b => ih b (h b)⟩
  | alloc n k ih => exact ih h

section
attribute [local irreducible] PrefixVarint.leadingOnes
omit hr in
theorem quiet_prefix : Prog.Quiet decodePrefix := fun _ => trivial
omit hr in
theorem quiet_u16 : Prog.Quiet decodeU16 := by
  refine quiet_prefix.bind fun p => ?_
  split <;> first | trivial | exact fun _ => trivial
omit hr in
theorem quiet_u32 : Prog.Quiet decodeU32 := by
  refine quiet_prefix.bind fun p => ?_
  split <;> first | trivial | exact fun _ => trivial
omit hr in
theorem quiet_u64 : Prog.Quiet decodeU64 := by
  refine quiet_prefix.bind fun p => ?_
  split <;> first | trivial | exact fun _ => trivial
end

theorem u16 : Outcomes R True (io decodeU16) := of_quiet hr quiet_u16
theorem u32 : Outcomes R True (io decodeU32) := of_quiet hr quiet_u32
theorem u64 : Outcomes R True (io decodeU64) := of_quiet hr quiet_u64

theorem bool : Outcomes R True deBool := by
  refine (readBytes hr 1).bind fun _ b => ?_
  split
  · trivial
  · trivial
  · exact hr

theorem string (t : Target) : Outcomes R True (deString t) := by
  refine (u64 hr).bind fun _ len => ?_
  split
  · refine (readBytes hr _).bind fun _ b => ?_
    split
    · exact hr
    · trivial
  · refine ⟨fun _ => hr, fun bs => ?_⟩
    show Outcomes R True (match fromUtf8 bs with | none => _ | some s => _)
    split
    · exact hr
    · split
      · exact hr
      · trivial

theorem byteBuf (t : Target) : Outcomes R True (deByteBuf t) := by
  refine (u64 hr).bind fun _ len => ?_
  split
  · show Outcomes R True (byteBufLoop _ _ _ _ _)
    generalize t.asUsize len + 1 = fuel
    generalize ([] : List UInt8) = result
    generalize 0 = pos
    induction fuel generalizing result pos with
    | zero => rw [byteBufLoop]; trivial
    | succ fuel ih =>
      rw [byteBufLoop]
      split
      · exact (readBytes hr _).bind fun _ b => ih _ _
      · trivial
  · exact (readBytes hr _).bind fun _ b => trivial

omit hr in
theorem times {p : Prog DeErr α} (h : Outcomes R S p) (n : Nat) :
    Outcomes R True (De.times n p) := by
  induction n with
  | zero => trivial
  | succ n ih => exact h.bind fun _ _ => ih.bind fun _ _ => trivial

end Prog.Outcomes

namespace De
open Spec Prog

/-- An error of a kind the type has. -/
def Allowed (P : Fault → Prop) (e : DeErr) : Prop := ∃ f, f.Is e ∧ P f

theorem Allowed.mono {P Q : Fault → Prop} (h : ∀ f, P f → Q f) (e : DeErr) (he : Allowed P e) :
    Allowed Q e := he.imp fun f hf => ⟨hf.1, h f hf.2⟩

theorem allowed_read {P : Fault → Prop} (h : P .read) : Allowed P .read := ⟨.read, rfl, h⟩

mutual
theorem outcomes_de (t : Target) : (ty : Ty) →
    Outcomes (Allowed (Raises · ty)) (Accepts ty) (de t ty)
  | .bool => by
    rw [de]; exact ((Outcomes.bool (allowed_read (by rw [Raises] <;> simp))).wrap _).mono
      (fun _ h => h) fun _ => by rw [Accepts] <;> simp
  | .i8 => by
    rw [de]; exact (((Outcomes.readBytes (allowed_read (by rw [Raises] <;> simp)) 1).wrap _).wrap _).mono
      (fun _ h => h) fun _ => by rw [Accepts] <;> simp
  | .i16 => by
    rw [de]; exact (((Outcomes.u16 (allowed_read (by rw [Raises] <;> simp))).wrap _).wrap _).mono
      (fun _ h => h) fun _ => by rw [Accepts] <;> simp
  | .i32 => by
    rw [de]; exact (((Outcomes.u32 (allowed_read (by rw [Raises] <;> simp))).wrap _).wrap _).mono
      (fun _ h => h) fun _ => by rw [Accepts] <;> simp
  | .i64 => by
    rw [de]; exact (((Outcomes.u64 (allowed_read (by rw [Raises] <;> simp))).wrap _).wrap _).mono
      (fun _ h => h) fun _ => by rw [Accepts] <;> simp
  | .i128 => by rw [de]; exact ⟨.message, ⟨_, rfl⟩, rfl⟩
  | .u8 => by
    rw [de]; exact (((Outcomes.readBytes (allowed_read (by rw [Raises] <;> simp)) 1).wrap _).wrap _).mono
      (fun _ h => h) fun _ => by rw [Accepts] <;> simp
  | .u16 => by
    rw [de]; exact ((Outcomes.u16 (allowed_read (by rw [Raises] <;> simp))).wrap _).mono
      (fun _ h => h) fun _ => by rw [Accepts] <;> simp
  | .u32 => by
    rw [de]; exact ((Outcomes.u32 (allowed_read (by rw [Raises] <;> simp))).wrap _).mono
      (fun _ h => h) fun _ => by rw [Accepts] <;> simp
  | .u64 => by
    rw [de]; exact ((Outcomes.u64 (allowed_read (by rw [Raises] <;> simp))).wrap _).mono
      (fun _ h => h) fun _ => by rw [Accepts] <;> simp
  | .u128 => by rw [de]; exact ⟨.message, ⟨_, rfl⟩, rfl⟩
  | .f32 => by
    rw [de]; exact (((Outcomes.readBytes (allowed_read (by rw [Raises] <;> simp)) 4).wrap _).wrap _).mono
      (fun _ h => h) fun _ => by rw [Accepts] <;> simp
  | .f64 => by
    rw [de]; exact (((Outcomes.readBytes (allowed_read (by rw [Raises] <;> simp)) 8).wrap _).wrap _).mono
      (fun _ h => h) fun _ => by rw [Accepts] <;> simp
  | .char => by
    rw [de]
    refine Outcomes.wrap ?_ _
    refine (Outcomes.string (allowed_read (by simp [Raises])) t).bind fun _ s => ?_
    split
    · exact ⟨.charSize, rfl, by simp [Raises]⟩
    · show Accepts .char
      rw [Accepts] <;> simp
  | .string => by
    rw [de]; exact ((Outcomes.string (allowed_read (by rw [Raises] <;> simp)) t).wrap _).mono
      (fun _ h => h) fun _ => by rw [Accepts] <;> simp
  | .byteBuf => by
    rw [de]; exact ((Outcomes.byteBuf (allowed_read (by rw [Raises] <;> simp)) t).wrap _).mono
      (fun _ h => h) fun _ => by rw [Accepts] <;> simp
  | .any => by rw [de]; trivial
  | .str => by rw [de]; trivial
  | .bytes => by rw [de]; trivial
  | .ignoredAny => by rw [de]; trivial
  | .option ty => by
    rw [de]
    have hi : Accepts (.option ty) := by rw [Accepts] <;> simp
    refine (Outcomes.bool (allowed_read (by simp [Raises]))).bind fun _ b => ?_
    split
    · exact ((outcomes_de t ty).wrap _).mono (Allowed.mono fun f h => by simp [Raises, h]) fun _ => hi
    · exact hi
  | .unit => by
    rw [de]; show Accepts .unit; rw [Accepts] <;> simp
  | .unitStruct n => by
    rw [de]; show Accepts (.unitStruct n); rw [Accepts] <;> simp
  | .newtypeStruct _ ty => by
    rw [de]
    exact ((outcomes_de t ty).wrap _).mono (Allowed.mono fun f h => by simp [Raises, h])
      fun h => by simpa [Accepts] using h
  | .seq ty => by
    rw [de]
    have hi : Accepts (.seq ty) := by rw [Accepts] <;> simp
    refine (Outcomes.u64 (allowed_read (by simp [Raises]))).bind fun _ n => ?_
    exact ((((outcomes_de t ty).mono (Allowed.mono fun f h => by simp [Raises, h])
      id).times _).wrap _).mono (fun _ h => h) fun _ => hi
  | .tuple ts => by
    rw [de]
    exact ((outcomes_all t ts).wrap _).mono (Allowed.mono fun f h => by simpa [Raises] using h)
      fun h => by simpa [Accepts] using h
  | .tupleStruct _ ts => by
    rw [de]
    exact ((outcomes_all t ts).wrap _).mono (Allowed.mono fun f h => by simpa [Raises] using h)
      fun h => by simpa [Accepts] using h
  | .map kt vt => by
    rw [de]
    have hi : Accepts (.map kt vt) := by rw [Accepts] <;> simp
    refine (Outcomes.u64 (allowed_read (by simp [Raises]))).bind fun _ n => ?_
    refine ((Outcomes.times (S := True) ?_ _).wrap _).mono (fun _ h => h) fun _ => hi
    refine ((outcomes_de t kt).mono (Allowed.mono fun f h => by simp [Raises, h]) id).bind
      fun hk k => ?_
    exact (((outcomes_de t vt).mono (Allowed.mono fun f h => by simp [Raises, h, hk])
      fun _ => trivial).wrap _)
  | .struct _ fs => by
    rw [de]
    exact ((outcomes_fields t fs).wrap _).mono (Allowed.mono fun f h => by simpa [Raises] using h)
      fun h => by simpa [Accepts] using h
  | .enum name vs => by
    rw [de]
    refine (Outcomes.u16 (allowed_read (by simp [Raises]))).bind fun _ i => ?_
    refine (outcomes_variant t name i i.toNat 65536 i.toNat_lt vs).mono
      (Allowed.mono fun f h => ?_) fun h => by simpa [Accepts] using h
    simp only [Raises]
    have hi : i.toNat < 65536 := i.toNat_lt
    exact .inr (h.imp (fun h => ⟨h.1, by omega⟩) id)
theorem outcomes_all (t : Target) : (ts : List Ty) →
    Outcomes (Allowed (AnyRaises · ts)) (AllAccept ts) (deAll t ts)
  | [] => by rw [deAll]; show AllAccept []; simp [AllAccept]
  | ty :: ts => by
    rw [deAll]
    refine ((outcomes_de t ty).mono (Allowed.mono fun f h => by simp [AnyRaises, h]) id).bind
      fun hi v => ?_
    exact ((outcomes_all t ts).mono (Allowed.mono fun f h => by simp [AnyRaises, h, hi])
      fun h => by simp [AllAccept, h, hi]).wrap _
theorem outcomes_fields (t : Target) : (fs : List (String × Ty)) →
    Outcomes (Allowed (AnyFieldRaises · fs)) (FieldsAccept fs) (deFields t fs)
  | [] => by rw [deFields]; show FieldsAccept []; simp [FieldsAccept]
  | (n, ty) :: fs => by
    rw [deFields]
    refine ((outcomes_de t ty).mono (Allowed.mono fun f h => by simp [AnyFieldRaises, h]) id).bind
      fun hi v => ?_
    exact ((outcomes_fields t fs).mono (Allowed.mono fun f h => by simp [AnyFieldRaises, h, hi])
      fun h => by simp [FieldsAccept, h, hi]).wrap _
theorem outcomes_variant (t : Target) (name : String) (i : UInt16) :
    (j n : Nat) → j < n → (vs : List (String × VTy)) →
    Outcomes (Allowed fun f => (f = .message ∧ vs.length ≤ j) ∨ AnyVariantRaises f n vs)
      (SomeVariantAccepts n vs) (deVariant t name i j vs)
  | j, n, _, [] => by
    rw [deVariant]; exact ⟨.message, ⟨_, rfl⟩, .inl ⟨rfl, by simp⟩⟩
  | j + 1, n + 1, h, v :: vs => by
    rw [deVariant]
    refine (outcomes_variant t name i j n (by omega) vs).mono (Allowed.mono fun f h => ?_) fun h => ?_
    · rcases h with h | h
      · exact .inl ⟨h.1, by simp only [List.length_cons]; omega⟩
      · exact .inr (by simp [AnyVariantRaises, h])
    · simp [SomeVariantAccepts, h]
  | 0, n + 1, _, (vn, vt) :: vs => by
    rw [deVariant]
    exact (outcomes_payload t name _ vn vt).mono
      (Allowed.mono fun f h => .inr (by simp [AnyVariantRaises, h]))
      fun h => by simp [SomeVariantAccepts, h]
theorem outcomes_payload (t : Target) (name : String) (i : UInt32) (vn : String) : (vt : VTy) →
    Outcomes (Allowed (PayloadRaises · vt)) (PayloadAccepts vt) (dePayload t name i vn vt)
  | .unit => by rw [dePayload]; show PayloadAccepts .unit; simp [PayloadAccepts]
  | .newtype ty => by
    rw [dePayload]
    exact ((outcomes_de t ty).wrap _).mono (Allowed.mono fun f h => by simpa [PayloadRaises] using h)
      fun h => by simpa [PayloadAccepts] using h
  | .tuple ts => by
    rw [dePayload]
    exact ((outcomes_all t ts).wrap _).mono (Allowed.mono fun f h => by simpa [PayloadRaises] using h)
      fun h => by simpa [PayloadAccepts] using h
  | .struct fs => by
    rw [dePayload]
    exact ((outcomes_fields t fs).wrap _).mono
      (Allowed.mono fun f h => by simpa [PayloadRaises] using h)
      fun h => by simpa [PayloadAccepts] using h
end

/-! ## Inputs with each outcome -/

/-- `bs` is accepted, whatever follows. -/
def AcceptsAt {α : Type} (t : Target) (p : Prog DeErr α) (bs : List UInt8) : Prop :=
  ∀ fin rest, ∃ v, Prog.exec t fin p (bs ++ rest) = .ok (v, rest)

/-- `bs` is rejected with an error of kind `f`. -/
def FailsAt {α : Type} (t : Target) (f : Fault) (p : Prog DeErr α) (bs : List UInt8) : Prop :=
  ∀ fin, ∃ e, f.Is e ∧ Prog.exec t fin p bs = .err e

section
variable {α β : Type} {t : Target} {f : Fault} {p : Prog DeErr α} {g : α → Prog DeErr β}
  {bs cs : List UInt8}

theorem AcceptsAt.bind (h : AcceptsAt t p bs) (hg : ∀ a, AcceptsAt t (g a) cs) :
    AcceptsAt t (Prog.bind p g) (bs ++ cs) := fun fin rest => by
  obtain ⟨a, ha⟩ := h fin (cs ++ rest)
  obtain ⟨b, hb⟩ := hg a fin rest
  exact ⟨b, by rw [List.append_assoc, Prog.exec_bind, ha, Prog.next_ok, hb]⟩

theorem AcceptsAt.pure (a : α) : AcceptsAt t (.done (.ok a)) [] := fun _ _ => ⟨a, rfl⟩

theorem AcceptsAt.wrap (h : AcceptsAt t p bs) (g : α → β) :
    AcceptsAt t (p >>= fun a => Pure.pure (g a)) bs := by
  have := AcceptsAt.bind h (g := fun a => Pure.pure (g a)) fun a => AcceptsAt.pure (t := t) (g a)
  rwa [List.append_nil] at this

theorem FailsAt.bind (h : FailsAt t f p bs) : FailsAt t f (Prog.bind p g) bs := fun fin => by
  obtain ⟨e, he, hx⟩ := h fin
  exact ⟨e, he, by rw [Prog.exec_bind, hx]; rfl⟩

theorem FailsAt.after (h : AcceptsAt t p bs) (hg : ∀ a, FailsAt t f (g a) cs) :
    FailsAt t f (Prog.bind p g) (bs ++ cs) := fun fin => by
  obtain ⟨a, ha⟩ := h fin cs
  obtain ⟨e, he, hx⟩ := hg a fin
  exact ⟨e, he, by rw [Prog.exec_bind, ha, Prog.next_ok, hx]⟩

/-- With a known first result. -/
theorem AcceptsAt.step {a : α} (h : ∀ fin rest, Prog.exec t fin p (bs ++ rest) = .ok (a, rest))
    (hg : AcceptsAt t (g a) cs) : AcceptsAt t (Prog.bind p g) (bs ++ cs) := fun fin rest => by
  obtain ⟨b, hb⟩ := hg fin rest
  exact ⟨b, by rw [List.append_assoc, Prog.exec_bind, h, Prog.next_ok, hb]⟩

theorem FailsAt.step {a : α} (h : ∀ fin rest, Prog.exec t fin p (bs ++ rest) = .ok (a, rest))
    (hg : FailsAt t f (g a) cs) : FailsAt t f (Prog.bind p g) (bs ++ cs) := fun fin => by
  obtain ⟨e, he, hx⟩ := hg fin
  exact ⟨e, he, by rw [Prog.exec_bind, h, Prog.next_ok, hx]⟩
end

section
variable (t : Target)

theorem at_u16 {n : Nat} (hn : n < 2 ^ 16) (fin : Ending) (rest : List UInt8) :
    Prog.exec t fin (io PrefixVarint.decodeU16) (varint 16 n ++ rest) = .ok (UInt16.ofNat n, rest) :=
  exec_u16_varint t fin n hn rest
theorem at_u64 {n : Nat} (hn : n < 2 ^ 64) (fin : Ending) (rest : List UInt8) :
    Prog.exec t fin (io PrefixVarint.decodeU64) (varint 64 n ++ rest) = .ok (UInt64.ofNat n, rest) :=
  exec_u64_varint t fin n hn rest
theorem at_bool (b : Bool) (fin : Ending) (rest : List UInt8) :
    Prog.exec t fin deBool ([if b then 1 else 0] ++ rest) = .ok (b, rest) := by
  cases b <;> rfl

theorem accepts_u16 : AcceptsAt t (io PrefixVarint.decodeU16) (varint 16 0) := fun fin rest =>
  ⟨_, at_u16 t (by decide) fin rest⟩
theorem accepts_u32 : AcceptsAt t (io PrefixVarint.decodeU32) (varint 32 0) := fun fin rest =>
  ⟨_, exec_u32_varint t fin 0 (by decide) rest⟩
theorem accepts_u64 : AcceptsAt t (io PrefixVarint.decodeU64) (varint 64 0) := fun fin rest =>
  ⟨_, at_u64 t (by decide) fin rest⟩
theorem accepts_bytes (n : Nat) : AcceptsAt t (readBytes n) (List.replicate n 0) := fun fin rest => by
  obtain ⟨v, -, h⟩ := exec_readBytes_append t fin n (List.replicate n 0) rest (by simp)
  exact ⟨v, h⟩
theorem accepts_string (s : String) (h : (utf8 s).length < 2 ^ 32) :
    AcceptsAt t (deString t) (block (utf8 s)) := fun fin rest =>
  ⟨s, deString_block t fin s (Nat.lt_of_lt_of_le h (Nat.pow_le_pow_right (by omega)
    (by cases t.ptr <;> simp [PtrWidth.bits]))) rest⟩
theorem accepts_byteBuf : AcceptsAt t (deByteBuf t) (varint 64 0) := by
  rw [← List.append_nil (varint 64 0)]
  refine AcceptsAt.step (at_u64 t (by decide)) fun fin rest => ?_
  rw [if_neg (by decide)]
  refine ⟨[], ?_⟩
  rw [Prog.exec]
  have ha : t.allocate (UInt64.ofNat 0).toNat = none := by
    simp [Target.allocate]
  rw [ha]
  obtain ⟨v, hv, h⟩ := exec_readBytes_append t fin (UInt64.ofNat 0).toNat [] rest rfl
  simp only [List.nil_append] at h ⊢
  rw [Prog.bind_eq, Prog.exec_bind, h, Prog.next_ok, hv]
  rfl

theorem fails_bytes (n : Nat) (hn : 0 < n) : FailsAt t .read (readBytes n) [] := fun fin =>
  ⟨.read, rfl, by rw [readBytes, Prog.exec, dif_neg (by simp; omega)]; rfl⟩
theorem fails_u16 : FailsAt t .read (io PrefixVarint.decodeU16) [] := fun fin =>
  ⟨.read, rfl, by rw [exec_u16]; rfl⟩
theorem fails_u32 : FailsAt t .read (io PrefixVarint.decodeU32) [] := fun fin =>
  ⟨.read, rfl, by rw [exec_u32]; rfl⟩
theorem fails_u64 : FailsAt t .read (io PrefixVarint.decodeU64) [] := fun fin =>
  ⟨.read, rfl, by rw [exec_u64]; rfl⟩

theorem count_one (t : Target) : t.asUsize (UInt64.ofNat 1) = 1 :=
  asUsize_ofNat (by cases t.ptr <;> simp [PtrWidth.bits])
theorem count_zero (t : Target) : t.asUsize (UInt64.ofNat 0) = 0 :=
  asUsize_ofNat (by cases t.ptr <;> simp [PtrWidth.bits])
end

mutual
theorem accepts_de (t : Target) : (ty : Ty) → Accepts ty → ∃ bs, AcceptsAt t (de t ty) bs
  | .bool, _ => ⟨_, by rw [de]; exact AcceptsAt.wrap (bs := [0]) (fun fin rest => ⟨_, at_bool t false fin rest⟩) _⟩
  | .i8, _ => ⟨_, by rw [de]; exact ((accepts_bytes t 1).wrap _).wrap _⟩
  | .i16, _ => ⟨_, by rw [de]; exact ((accepts_u16 t).wrap _).wrap _⟩
  | .i32, _ => ⟨_, by rw [de]; exact ((accepts_u32 t).wrap _).wrap _⟩
  | .i64, _ => ⟨_, by rw [de]; exact ((accepts_u64 t).wrap _).wrap _⟩
  | .i128, h => by simp [Accepts] at h
  | .u8, _ => ⟨_, by rw [de]; exact ((accepts_bytes t 1).wrap _).wrap _⟩
  | .u16, _ => ⟨_, by rw [de]; exact (accepts_u16 t).wrap _⟩
  | .u32, _ => ⟨_, by rw [de]; exact (accepts_u32 t).wrap _⟩
  | .u64, _ => ⟨_, by rw [de]; exact (accepts_u64 t).wrap _⟩
  | .u128, h => by simp [Accepts] at h
  | .f32, _ => ⟨_, by rw [de]; exact ((accepts_bytes t 4).wrap _).wrap _⟩
  | .f64, _ => ⟨_, by rw [de]; exact ((accepts_bytes t 8).wrap _).wrap _⟩
  | .char, _ => ⟨block (utf8 "a"), by
    rw [de]
    refine AcceptsAt.wrap ?_ _
    rw [← List.append_nil (block _)]
    refine AcceptsAt.step (a := "a") (fun fin rest => deString_block t fin "a"
      (by cases t.ptr <;> decide) rest) ?_
    exact AcceptsAt.pure 'a'⟩
  | .string, _ => ⟨_, by rw [de]; exact (accepts_string t "" (by decide)).wrap _⟩
  | .byteBuf, _ => ⟨_, by rw [de]; exact (accepts_byteBuf t).wrap _⟩
  | .any, h => by simp [Accepts] at h
  | .str, h => by simp [Accepts] at h
  | .bytes, h => by simp [Accepts] at h
  | .ignoredAny, h => by simp [Accepts] at h
  | .option ty, _ => ⟨[0] ++ [], by
    rw [de]
    exact AcceptsAt.step (a := false) (at_bool t false) (AcceptsAt.pure _)⟩
  | .unit, _ => ⟨[], by rw [de]; exact AcceptsAt.pure _⟩
  | .unitStruct _, _ => ⟨[], by rw [de]; exact AcceptsAt.pure _⟩
  | .newtypeStruct _ ty, h => by
    obtain ⟨bs, hb⟩ := accepts_de t ty (by simpa [Accepts] using h)
    exact ⟨bs, by rw [de]; exact hb.wrap _⟩
  | .seq ty, _ => ⟨varint 64 0 ++ [], by
    rw [de]
    refine AcceptsAt.step (at_u64 t (n := 0) (by decide)) ?_
    rw [count_zero, times]
    exact AcceptsAt.pure _⟩
  | .tuple ts, h => by
    obtain ⟨bs, hb⟩ := accepts_all t ts (by simpa [Accepts] using h)
    exact ⟨bs, by rw [de]; exact hb.wrap _⟩
  | .tupleStruct _ ts, h => by
    obtain ⟨bs, hb⟩ := accepts_all t ts (by simpa [Accepts] using h)
    exact ⟨bs, by rw [de]; exact hb.wrap _⟩
  | .map kt vt, _ => ⟨varint 64 0 ++ [], by
    rw [de]
    refine AcceptsAt.step (at_u64 t (n := 0) (by decide)) ?_
    rw [count_zero, times]
    exact AcceptsAt.pure _⟩
  | .struct _ fs, h => by
    obtain ⟨bs, hb⟩ := accepts_fields t fs (by simpa [Accepts] using h)
    exact ⟨bs, by rw [de]; exact hb.wrap _⟩
  | .enum name vs, h => by
    obtain ⟨j, hj, bs, hb⟩ := accepts_variant t name 65536 vs (by simpa [Accepts] using h)
    refine ⟨varint 16 j ++ bs, ?_⟩
    rw [de]
    refine AcceptsAt.step (at_u16 t hj) ?_
    have := hb (UInt16.ofNat j)
    rwa [show (UInt16.ofNat j).toNat = j by simp; omega]
theorem accepts_all (t : Target) : (ts : List Ty) → AllAccept ts → ∃ bs, AcceptsAt t (deAll t ts) bs
  | [], _ => ⟨[], by rw [deAll]; exact AcceptsAt.pure _⟩
  | ty :: ts, h => by
    obtain ⟨bs, hb⟩ := accepts_de t ty h.1
    obtain ⟨cs, hc⟩ := accepts_all t ts h.2
    exact ⟨bs ++ cs, by rw [deAll]; exact hb.bind fun _ => hc.wrap _⟩
theorem accepts_fields (t : Target) : (fs : List (String × Ty)) → FieldsAccept fs →
    ∃ bs, AcceptsAt t (deFields t fs) bs
  | [], _ => ⟨[], by rw [deFields]; exact AcceptsAt.pure _⟩
  | (_, ty) :: fs, h => by
    obtain ⟨bs, hb⟩ := accepts_de t ty h.1
    obtain ⟨cs, hc⟩ := accepts_fields t fs h.2
    exact ⟨bs ++ cs, by rw [deFields]; exact hb.bind fun _ => hc.wrap _⟩
theorem accepts_variant (t : Target) (name : String) : (n : Nat) → (vs : List (String × VTy)) →
    SomeVariantAccepts n vs →
    ∃ j, j < n ∧ ∃ bs, ∀ i, AcceptsAt t (deVariant t name i j vs) bs
  | 0, [], h => by simp [SomeVariantAccepts] at h
  | n + 1, [], h => by simp [SomeVariantAccepts] at h
  | 0, _ :: _, h => by simp [SomeVariantAccepts] at h
  | n + 1, (vn, vt) :: vs, h => by
    simp only [SomeVariantAccepts] at h
    rcases h with h | h
    · obtain ⟨bs, hb⟩ := accepts_payload t name vn vt h
      exact ⟨0, by omega, bs, fun i => by rw [deVariant]; exact hb _⟩
    · obtain ⟨j, hj, bs, hb⟩ := accepts_variant t name n vs h
      exact ⟨j + 1, by omega, bs, fun i => by rw [deVariant]; exact hb i⟩
theorem accepts_payload (t : Target) (name : String) (vn : String) : (vt : VTy) →
    PayloadAccepts vt → ∃ bs, ∀ i, AcceptsAt t (dePayload t name i vn vt) bs
  | .unit, _ => ⟨[], fun i => by rw [dePayload]; exact AcceptsAt.pure _⟩
  | .newtype ty, h => by
    obtain ⟨bs, hb⟩ := accepts_de t ty (by simpa [PayloadAccepts] using h)
    exact ⟨bs, fun i => by rw [dePayload]; exact hb.wrap _⟩
  | .tuple ts, h => by
    obtain ⟨bs, hb⟩ := accepts_all t ts (by simpa [PayloadAccepts] using h)
    exact ⟨bs, fun i => by rw [dePayload]; exact hb.wrap _⟩
  | .struct fs, h => by
    obtain ⟨bs, hb⟩ := accepts_fields t fs (by simpa [PayloadAccepts] using h)
    exact ⟨bs, fun i => by rw [dePayload]; exact hb.wrap _⟩
end

mutual
theorem fails_de (t : Target) (f : Fault) : (ty : Ty) → Raises f ty →
    ∃ bs, FailsAt t f (de t ty) bs
  | .bool, h => by
    obtain rfl : f = .read := by rw [Raises] at h <;> first | exact h | simp
    exact ⟨[], by rw [de]; exact ((fails_bytes t 1 (by omega)).bind).bind⟩
  | .i8, h => by
    obtain rfl : f = .read := by rw [Raises] at h <;> first | exact h | simp
    exact ⟨[], by rw [de]; exact ((fails_bytes t 1 (by omega)).bind).bind⟩
  | .i16, h => by
    obtain rfl : f = .read := by rw [Raises] at h <;> first | exact h | simp
    exact ⟨[], by rw [de]; exact ((fails_u16 t).bind).bind⟩
  | .i32, h => by
    obtain rfl : f = .read := by rw [Raises] at h <;> first | exact h | simp
    exact ⟨[], by rw [de]; exact ((fails_u32 t).bind).bind⟩
  | .i64, h => by
    obtain rfl : f = .read := by rw [Raises] at h <;> first | exact h | simp
    exact ⟨[], by rw [de]; exact ((fails_u64 t).bind).bind⟩
  | .i128, h => by
    obtain rfl : f = .message := by simpa [Raises] using h
    exact ⟨[], fun fin => ⟨_, ⟨_, rfl⟩, by rw [de]; rfl⟩⟩
  | .u8, h => by
    obtain rfl : f = .read := by rw [Raises] at h <;> first | exact h | simp
    exact ⟨[], by rw [de]; exact ((fails_bytes t 1 (by omega)).bind).bind⟩
  | .u16, h => by
    obtain rfl : f = .read := by rw [Raises] at h <;> first | exact h | simp
    exact ⟨[], by rw [de]; exact (fails_u16 t).bind⟩
  | .u32, h => by
    obtain rfl : f = .read := by rw [Raises] at h <;> first | exact h | simp
    exact ⟨[], by rw [de]; exact (fails_u32 t).bind⟩
  | .u64, h => by
    obtain rfl : f = .read := by rw [Raises] at h <;> first | exact h | simp
    exact ⟨[], by rw [de]; exact (fails_u64 t).bind⟩
  | .u128, h => by
    obtain rfl : f = .message := by simpa [Raises] using h
    exact ⟨[], fun fin => ⟨_, ⟨_, rfl⟩, by rw [de]; rfl⟩⟩
  | .f32, h => by
    obtain rfl : f = .read := by rw [Raises] at h <;> first | exact h | simp
    exact ⟨[], by rw [de]; exact ((fails_bytes t 4 (by omega)).bind).bind⟩
  | .f64, h => by
    obtain rfl : f = .read := by rw [Raises] at h <;> first | exact h | simp
    exact ⟨[], by rw [de]; exact ((fails_bytes t 8 (by omega)).bind).bind⟩
  | .char, h => by
    simp only [Raises] at h
    rcases h with rfl | rfl
    · exact ⟨[], by rw [de]; exact (((fails_u64 t).bind).bind).bind⟩
    · refine ⟨block (utf8 "") ++ [], ?_⟩
      rw [de]
      refine FailsAt.bind ?_
      exact FailsAt.step (a := "") (fun fin rest => deString_block t fin ""
        (by cases t.ptr <;> decide) rest) fun fin => ⟨_, rfl, rfl⟩
  | .string, h => by
    obtain rfl : f = .read := by rw [Raises] at h <;> first | exact h | simp
    exact ⟨[], by rw [de]; exact ((fails_u64 t).bind).bind⟩
  | .byteBuf, h => by
    obtain rfl : f = .read := by rw [Raises] at h <;> first | exact h | simp
    exact ⟨[], by rw [de]; exact ((fails_u64 t).bind).bind⟩
  | .any, h => by simp [Raises] at h
  | .str, h => by simp [Raises] at h
  | .bytes, h => by simp [Raises] at h
  | .ignoredAny, h => by simp [Raises] at h
  | .option ty, h => by
    simp only [Raises] at h
    rcases h with rfl | h
    · exact ⟨[], by rw [de]; exact ((fails_bytes t 1 (by omega)).bind).bind⟩
    · obtain ⟨bs, hb⟩ := fails_de t f ty h
      refine ⟨[1] ++ bs, ?_⟩
      rw [de]
      exact FailsAt.step (a := true) (at_bool t true) hb.bind
  | .unit, h => by simp [Raises] at h
  | .unitStruct _, h => by simp [Raises] at h
  | .newtypeStruct _ ty, h => by
    obtain ⟨bs, hb⟩ := fails_de t f ty (by simpa [Raises] using h)
    exact ⟨bs, by rw [de]; exact hb.bind⟩
  | .seq ty, h => by
    simp only [Raises] at h
    rcases h with rfl | h
    · exact ⟨[], by rw [de]; exact (fails_u64 t).bind⟩
    · obtain ⟨bs, hb⟩ := fails_de t f ty h
      refine ⟨varint 64 1 ++ bs, ?_⟩
      rw [de]
      refine FailsAt.step (at_u64 t (n := 1) (by decide)) ?_
      rw [count_one, times]
      exact hb.bind.bind
  | .tuple ts, h => by
    obtain ⟨bs, hb⟩ := fails_all t f ts (by simpa [Raises] using h)
    exact ⟨bs, by rw [de]; exact hb.bind⟩
  | .tupleStruct _ ts, h => by
    obtain ⟨bs, hb⟩ := fails_all t f ts (by simpa [Raises] using h)
    exact ⟨bs, by rw [de]; exact hb.bind⟩
  | .map kt vt, h => by
    simp only [Raises] at h
    rcases h with rfl | h | ⟨hk, h⟩
    · exact ⟨[], by rw [de]; exact (fails_u64 t).bind⟩
    · obtain ⟨bs, hb⟩ := fails_de t f kt h
      refine ⟨varint 64 1 ++ bs, ?_⟩
      rw [de]
      refine FailsAt.step (at_u64 t (n := 1) (by decide)) ?_
      rw [count_one, times]
      exact hb.bind.bind.bind
    · obtain ⟨as, ha⟩ := accepts_de t kt hk
      obtain ⟨bs, hb⟩ := fails_de t f vt h
      refine ⟨varint 64 1 ++ (as ++ bs), ?_⟩
      rw [de]
      refine FailsAt.step (at_u64 t (n := 1) (by decide)) ?_
      rw [count_one, times]
      exact (FailsAt.after ha fun _ => hb.bind).bind.bind
  | .struct _ fs, h => by
    obtain ⟨bs, hb⟩ := fails_fields t f fs (by simpa [Raises] using h)
    exact ⟨bs, by rw [de]; exact hb.bind⟩
  | .enum name vs, h => by
    simp only [Raises] at h
    rcases h with rfl | ⟨rfl, h⟩ | h
    · exact ⟨[], by rw [de]; exact (fails_u16 t).bind⟩
    · refine ⟨varint 16 vs.length ++ [], ?_⟩
      rw [de]
      refine FailsAt.step (at_u16 t (n := vs.length) h) ?_
      rw [show (UInt16.ofNat vs.length).toNat = vs.length by simp; omega]
      have : ∀ (i : UInt16) (vs : List (String × VTy)),
          FailsAt t .message (deVariant t name i vs.length vs) [] := by
        intro i vs
        induction vs with
        | nil => exact fun fin => ⟨_, ⟨_, rfl⟩, by rw [deVariant]; rfl⟩
        | cons v vs ih => rw [List.length_cons, deVariant]; exact ih
      exact this _ vs
    · obtain ⟨j, hj, bs, hb⟩ := fails_variant t f name 65536 vs h
      refine ⟨varint 16 j ++ bs, ?_⟩
      rw [de]
      refine FailsAt.step (at_u16 t hj) ?_
      have := hb (UInt16.ofNat j)
      rwa [show (UInt16.ofNat j).toNat = j by simp; omega]
theorem fails_all (t : Target) (f : Fault) : (ts : List Ty) → AnyRaises f ts →
    ∃ bs, FailsAt t f (deAll t ts) bs
  | [], h => by simp [AnyRaises] at h
  | ty :: ts, h => by
    simp only [AnyRaises] at h
    rcases h with h | ⟨hi, h⟩
    · obtain ⟨bs, hb⟩ := fails_de t f ty h
      exact ⟨bs, by rw [deAll]; exact hb.bind⟩
    · obtain ⟨as, ha⟩ := accepts_de t ty hi
      obtain ⟨bs, hb⟩ := fails_all t f ts h
      exact ⟨as ++ bs, by rw [deAll]; exact FailsAt.after ha fun _ => hb.bind⟩
theorem fails_fields (t : Target) (f : Fault) : (fs : List (String × Ty)) → AnyFieldRaises f fs →
    ∃ bs, FailsAt t f (deFields t fs) bs
  | [], h => by simp [AnyFieldRaises] at h
  | (_, ty) :: fs, h => by
    simp only [AnyFieldRaises] at h
    rcases h with h | ⟨hi, h⟩
    · obtain ⟨bs, hb⟩ := fails_de t f ty h
      exact ⟨bs, by rw [deFields]; exact hb.bind⟩
    · obtain ⟨as, ha⟩ := accepts_de t ty hi
      obtain ⟨bs, hb⟩ := fails_fields t f fs h
      exact ⟨as ++ bs, by rw [deFields]; exact FailsAt.after ha fun _ => hb.bind⟩
theorem fails_variant (t : Target) (f : Fault) (name : String) : (n : Nat) →
    (vs : List (String × VTy)) → AnyVariantRaises f n vs →
    ∃ j, j < n ∧ ∃ bs, ∀ i, FailsAt t f (deVariant t name i j vs) bs
  | 0, [], h => by simp [AnyVariantRaises] at h
  | n + 1, [], h => by simp [AnyVariantRaises] at h
  | 0, _ :: _, h => by simp [AnyVariantRaises] at h
  | n + 1, (vn, vt) :: vs, h => by
    simp only [AnyVariantRaises] at h
    rcases h with h | h
    · obtain ⟨bs, hb⟩ := fails_payload t f name vn vt h
      exact ⟨0, by omega, bs, fun i => by rw [deVariant]; exact hb _⟩
    · obtain ⟨j, hj, bs, hb⟩ := fails_variant t f name n vs h
      exact ⟨j + 1, by omega, bs, fun i => by rw [deVariant]; exact hb i⟩
theorem fails_payload (t : Target) (f : Fault) (name : String) (vn : String) : (vt : VTy) →
    PayloadRaises f vt → ∃ bs, ∀ i, FailsAt t f (dePayload t name i vn vt) bs
  | .unit, h => by simp [PayloadRaises] at h
  | .newtype ty, h => by
    obtain ⟨bs, hb⟩ := fails_de t f ty (by simpa [PayloadRaises] using h)
    exact ⟨bs, fun i => by rw [dePayload]; exact hb.bind⟩
  | .tuple ts, h => by
    obtain ⟨bs, hb⟩ := fails_all t f ts (by simpa [PayloadRaises] using h)
    exact ⟨bs, fun i => by rw [dePayload]; exact hb.bind⟩
  | .struct fs, h => by
    obtain ⟨bs, hb⟩ := fails_fields t f fs (by simpa [PayloadRaises] using h)
    exact ⟨bs, fun i => by rw [dePayload]; exact hb.bind⟩
end
end De
end Dlhn

namespace Dlhn
open Spec Prog

namespace Body

variable {R : DeErr → Prop} (hr : R .read)
include hr

theorem outcomes_vecU8 (t : Target) : Outcomes R True (De.deVecU8 t) :=
  (Outcomes.u64 hr).bind fun _ _ => ((Outcomes.readBytes hr 1).wrap _).times _

theorem outcomes_date (mode : BuildMode) : Outcomes R True (Date.de mode) := by
  refine ((Outcomes.u32 hr).wrap _).bind fun _ y => ?_
  split
  · trivial
  · refine (Outcomes.u16 hr).bind fun _ o => ?_
    split <;> trivial

theorem outcomes_dateTime : Outcomes R True DateTime.de :=
  ((Outcomes.u64 hr).wrap _).bind fun _ _ => (Outcomes.u32 hr).wrap _

theorem outcomes_bigDecimal (t : Target) : Outcomes R True (BigDecimal.de t) := by
  refine (outcomes_vecU8 hr t).bind fun _ bs => ?_
  show Outcomes R True (if _ then _ else _)
  split
  · trivial
  · exact ((Outcomes.u64 hr).wrap _).wrap _

theorem outcomes_insertLoop {α : Type} (t : Target) {p : Prog DeErr α} (h : Outcomes R True p)
    (n : Nat) (m : List (String × α)) : Outcomes R True (insertLoop t p n m) := by
  induction n generalizing m with
  | zero => trivial
  | succ n ih => exact (Outcomes.string hr t).bind fun _ k => h.bind fun _ v => ih _

omit hr in
mutual
theorem outcomes_body (hr : R .read) (t : Target) (mode : BuildMode) (size : Nat) : (h : Header) →
    Outcomes R True (de t mode size h)
  | .unit => by rw [de]; trivial
  | .optional h => by
    rw [de]
    refine (Outcomes.bool hr).bind fun _ b => ?_
    split
    · exact (outcomes_body hr t mode size h).wrap _
    · trivial
  | .boolean => by rw [de]; exact (Outcomes.bool hr).wrap _
  | .uint8 => by rw [de]; exact ((Outcomes.readBytes hr 1).wrap _).wrap _
  | .uint16 => by rw [de]; exact (Outcomes.u16 hr).wrap _
  | .uint32 => by rw [de]; exact (Outcomes.u32 hr).wrap _
  | .uint64 => by rw [de]; exact (Outcomes.u64 hr).wrap _
  | .int8 => by rw [de]; exact ((Outcomes.readBytes hr 1).wrap _).wrap _
  | .int16 => by rw [de]; exact ((Outcomes.u16 hr).wrap _).wrap _
  | .int32 => by rw [de]; exact ((Outcomes.u32 hr).wrap _).wrap _
  | .int64 => by rw [de]; exact ((Outcomes.u64 hr).wrap _).wrap _
  | .float32 => by rw [de]; exact ((Outcomes.readBytes hr 4).wrap _).wrap _
  | .float64 => by rw [de]; exact ((Outcomes.readBytes hr 8).wrap _).wrap _
  | .bigUInt => by rw [de]; exact ((outcomes_vecU8 hr t).wrap _).wrap _
  | .bigInt => by rw [de]; exact ((outcomes_vecU8 hr t).wrap _).wrap _
  | .bigDecimal => by rw [de]; exact (outcomes_bigDecimal hr t).wrap _
  | .string => by rw [de]; exact (Outcomes.string hr t).wrap _
  | .binary => by rw [de]; exact (Outcomes.byteBuf hr t).wrap _
  | .array h => by
    rw [de]
    exact (Outcomes.u64 hr).bind fun _ n => ((outcomes_body hr t mode size h).times _).wrap _
  | .tuple hs => by rw [de]; exact (outcomes_bodies hr t mode size hs).wrap _
  | .map h => by
    rw [de]
    exact (Outcomes.u64 hr).bind fun _ n =>
      (outcomes_insertLoop hr t (outcomes_body hr t mode size h) _ _).wrap _
  | .enum hs => by
    rw [de]; exact (Outcomes.u32 hr).bind fun _ i => (outcomes_nth hr t mode size hs _).wrap _
  | .date => by rw [de]; exact (outcomes_date hr mode).wrap _
  | .dateTime => by rw [de]; exact (outcomes_dateTime hr).wrap _
theorem outcomes_bodies (hr : R .read) (t : Target) (mode : BuildMode) (size : Nat) :
    (hs : List Header) → Outcomes R True (deAll t mode size hs)
  | [] => by rw [deAll]; trivial
  | h :: hs => by
    rw [deAll]
    exact (outcomes_body hr t mode size h).bind fun _ _ => (outcomes_bodies hr t mode size hs).wrap _
theorem outcomes_nth (hr : R .read) (t : Target) (mode : BuildMode) (size : Nat) :
    (hs : List Header) → (i : Nat) → Outcomes R True (deNth t mode size i hs)
  | [], _ => by rw [deNth]; exact hr
  | h :: _, 0 => by rw [deNth]; exact outcomes_body hr t mode size h
  | _ :: hs, i + 1 => by rw [deNth]; exact outcomes_nth hr t mode size hs i
end
end Body

namespace Derive
open Spec hiding variantFields

/-- `Read`, or a message if a part of the type has some. -/
def Reports (env : Env) (l : List RTy) (e : DeErr) : Prop :=
  e = .read ∨ ((∃ s, e = .message s) ∧ ∃ U ∈ l, CheckingPart U ∨ NotCompiling env U)

theorem Reports.sub {env : Env} {l m : List RTy} (h : ∀ U ∈ m, U ∈ l) (e : DeErr)
    (he : Reports env m e) : Reports env l e :=
  he.imp id fun ⟨hs, U, hU, hc⟩ => ⟨hs, U, h U hU, hc⟩

theorem notCompiling_of_field {env : Env} {W : RTy} {attrs : List Attr} {n : String} {T : RTy}
    (hf : RField.mk attrs n T ∈ ownFields W) (hs : SkippedDe attrs) (hd : env.dflt attrs T = none) :
    NotCompiling env W := by
  cases W <;> first | (simp [ownFields] at hf; done) | exact ⟨_, hf, hs, hd⟩

theorem outcomes_entries {α : Type} {R : DeErr → Prop} (t : Target) (hr : R .read)
    {p : Prog DeErr α} (h : Outcomes R True p) (n : Nat) : Outcomes R True (deEntries t p n) := by
  induction n with
  | zero => trivial
  | succ n ih => exact (Outcomes.string hr t).bind fun _ _ => h.bind fun _ _ => ih.wrap _

mutual
theorem outcomes_deTy (t : Target) (mode : BuildMode) (env : Env) : (T : RTy) →
    Outcomes (Reports env (readParts T)) True (deTy t mode env T)
  | .unit => by rw [deTy]; trivial
  | .bool => by rw [deTy]; exact Outcomes.bool (.inl rfl)
  | .u8 => by rw [deTy]; exact (Outcomes.readBytes (.inl rfl) 1).wrap _
  | .u16 => by rw [deTy]; exact Outcomes.u16 (.inl rfl)
  | .u32 => by rw [deTy]; exact Outcomes.u32 (.inl rfl)
  | .u64 => by rw [deTy]; exact Outcomes.u64 (.inl rfl)
  | .i8 => by rw [deTy]; exact (Outcomes.readBytes (.inl rfl) 1).wrap _
  | .i16 => by rw [deTy]; exact (Outcomes.u16 (.inl rfl)).wrap _
  | .i32 => by rw [deTy]; exact (Outcomes.u32 (.inl rfl)).wrap _
  | .i64 => by rw [deTy]; exact (Outcomes.u64 (.inl rfl)).wrap _
  | .f32 => by rw [deTy]; exact (Outcomes.readBytes (.inl rfl) 4).wrap _
  | .f64 => by rw [deTy]; exact (Outcomes.readBytes (.inl rfl) 8).wrap _
  | .bigUint => by rw [deTy]; exact (Body.outcomes_vecU8 (.inl rfl) t).wrap _
  | .numBigUint => by rw [deTy]; exact (Body.outcomes_vecU8 (.inl rfl) t).wrap _
  | .bigInt => by rw [deTy]; exact (Body.outcomes_vecU8 (.inl rfl) t).wrap _
  | .numBigInt => by rw [deTy]; exact (Body.outcomes_vecU8 (.inl rfl) t).wrap _
  | .bigDecimal => by rw [deTy]; exact Body.outcomes_bigDecimal (.inl rfl) t
  | .numBigDecimal => by
    rw [deTy]
    refine (Body.outcomes_vecU8 (.inl rfl) t).bind fun _ bs => ?_
    show Outcomes _ True (if _ then _ else _)
    split
    · trivial
    · exact ((Outcomes.u64 (.inl rfl)).wrap _).wrap _
  | .string => by rw [deTy]; exact Outcomes.string (.inl rfl) t
  | .byteBuf => by rw [deTy]; exact Outcomes.byteBuf (.inl rfl) t
  | .dateTime => by rw [deTy]; exact Body.outcomes_dateTime (.inl rfl)
  | .str => by rw [deTy]; trivial
  | .bytes => by rw [deTy]; trivial
  | .date => by rw [deTy]; exact Body.outcomes_date (.inl rfl) mode
  | .timeDate => by
    rw [deTy]
    refine ((Outcomes.u32 (.inl rfl)).wrap _).bind fun _ y => ?_
    split
    · trivial
    · refine (Outcomes.u16 (.inl rfl)).bind fun _ o => ?_
      split
      · trivial
      · split
        · exact .inr ⟨⟨_, rfl⟩, .timeDate, by simp [readParts], .inl trivial⟩
        · trivial
  | .offsetDateTime => by
    rw [deTy]
    refine ((Outcomes.u64 (.inl rfl)).wrap _).bind fun _ s =>
      (Outcomes.u32 (.inl rfl)).bind fun _ n => ?_
    split
    · exact .inr ⟨⟨_, rfl⟩, .offsetDateTime, by simp [readParts], .inl trivial⟩
    · split <;> trivial
  | .union n => by
    rw [deTy]; exact .inr ⟨⟨_, rfl⟩, .union n, by simp [readParts], .inr trivial⟩
  | .foreign => by
    rw [deTy]; exact .inr ⟨⟨_, rfl⟩, .foreign, by simp [readParts], .inr trivial⟩
  | .option T => by
    rw [deTy]
    refine (Outcomes.bool (.inl rfl)).bind fun _ b => ?_
    cases b
    · trivial
    · exact ((outcomes_deTy t mode env T).mono
        (Reports.sub fun U hU => by simp [readParts, hU]) id).wrap _
  | .vec T => by
    rw [deTy]
    exact (Outcomes.u64 (.inl rfl)).bind fun _ _ => ((outcomes_deTy t mode env T).mono
        (Reports.sub fun U hU => by simp [readParts, hU]) id).times _
  | .btreeMap T => by
    rw [deTy]
    exact (Outcomes.u64 (.inl rfl)).bind fun _ n => (outcomes_entries t (.inl rfl)
      ((outcomes_deTy t mode env T).mono
        (Reports.sub fun U hU => by simp [readParts, hU]) id) _).wrap _
  | .hashMap T => by
    rw [deTy]
    exact (Outcomes.u64 (.inl rfl)).bind fun _ n => (outcomes_entries t (.inl rfl)
      ((outcomes_deTy t mode env T).mono
        (Reports.sub fun U hU => by simp [readParts, hU]) id) _).wrap _
  | .tuple Ts => by
    rw [deTy]
    exact (outcomes_deTuple t mode env Ts).mono (Reports.sub fun U hU => by simp [readParts, hU]) id
  | .struct name (.named fs) => by
    rw [deTy]
    exact (outcomes_deFields t mode env fs (.struct name (.named fs))
      (.inr (fun f hf => hf))).mono
      (Reports.sub fun U hU => by simpa [readParts] using hU) id
  | .struct name (.unnamed []) => by rw [deTy]; trivial
  | .struct name (.unnamed [.mk attrs fname T]) => by
    rw [deTy]
    exact ((outcomes_deTy t mode env T).mono
        (Reports.sub fun U hU => by simp [readParts, hU]) id).wrap _
  | .struct name (.unnamed (f :: g :: fs)) => by
    rw [deTy]
    exact (outcomes_deFields t mode env (f :: g :: fs) (.struct name (.unnamed (f :: g :: fs)))
      (.inr (fun f hf => hf))).mono
      (Reports.sub fun U hU => by simpa [readParts] using hU) id
  | .struct name .unit => by rw [deTy]; trivial
  | .enum name vs => by
    rw [deTy]
    exact (Outcomes.u16 (.inl rfl)).bind fun _ i =>
      (outcomes_deVariant t mode env (.enum name vs) trivial vs _).mono
        (Reports.sub fun U hU => by simpa [readParts] using hU) id
theorem outcomes_deTuple (t : Target) (mode : BuildMode) (env : Env) : (Ts : List RTy) →
    Outcomes (Reports env (readPartsAll Ts)) True (deTuple t mode env Ts)
  | [] => by rw [deTuple]; trivial
  | T :: Ts => by
    rw [deTuple]
    refine ((outcomes_deTy t mode env T).mono
      (Reports.sub fun U hU => by simp [readPartsAll, hU]) id).bind fun _ _ => ?_
    exact ((outcomes_deTuple t mode env Ts).mono
      (Reports.sub fun U hU => by simp [readPartsAll, hU]) id).wrap _
theorem outcomes_deFields (t : Target) (mode : BuildMode) (env : Env) : (fs : List RField) →
    (W : RTy) → CheckingPart W ∨ (∀ f ∈ fs, f ∈ ownFields W) →
    Outcomes (Reports env (W :: readPartsFields fs)) True (deFields t mode env fs)
  | [], _, _ => by rw [deFields]; trivial
  | .mk attrs fname T :: fs, W, hW => by
    have ih := outcomes_deFields t mode env fs W (hW.imp_right fun h f hf => h f (by simp [hf]))
    rw [deFields]
    by_cases hs : SkippedDe attrs
    · rw [if_pos ((deSkips_iff attrs).mpr hs)]
      have ih' := ih.mono (R' := Reports env (W :: readPartsFields (.mk attrs fname T :: fs)))
        (Reports.sub fun U hU => by simpa [readPartsFields, hs] using hU) id
      cases hd : env.dflt attrs T with
      | some v => exact ih'.wrap _
      | none =>
        refine .inr ⟨⟨_, rfl⟩, W, by simp, ?_⟩
        rcases hW with hW | hW
        · exact .inl hW
        · exact .inr (notCompiling_of_field (n := fname) (hW _ (by simp)) hs hd)
    · rw [if_neg (by rw [deSkips_iff]; exact hs)]
      refine ((outcomes_deTy t mode env T).mono
        (Reports.sub fun U hU => by simp [readPartsFields, hs, hU]) id).bind fun _ _ => ?_
      refine (ih.mono (Reports.sub fun U hU => ?_) id).wrap _
      simp only [readPartsFields, hs, if_false, List.mem_cons, List.mem_append] at hU ⊢
      exact hU.imp id .inr
theorem outcomes_deVariant (t : Target) (mode : BuildMode) (env : Env) {idx : Nat} (W : RTy)
    (hW : CheckingPart W) : (vs : List RVariant) → (n : Nat) →
    Outcomes (Reports env (W :: readPartsVariants vs)) True (deVariant t mode env idx n vs)
  | [], n => by rw [deVariant]; exact .inr ⟨⟨_, rfl⟩, W, by simp, .inl hW⟩
  | .mk attrs vname fields :: vs, n => by
    have ih := outcomes_deVariant (idx := idx) t mode env W hW vs
    by_cases hs : SkippedDe attrs
    · rw [deVariant_skip _ _ _ _ hs]
      exact ((ih n).mono (Reports.sub fun U hU => by
        simpa [readPartsVariants, hs] using hU) id).wrap _
    · cases n with
      | zero =>
        rw [deVariant_zero _ _ _ hs]
        refine ((outcomes_dePayload t mode env W hW fields).mono
          (Reports.sub fun U hU => ?_) id).wrap _
        simp only [readPartsVariants, hs, if_false, List.mem_cons, List.mem_append] at hU ⊢
        exact hU.imp id .inl
      | succ n =>
        rw [deVariant_succ _ _ _ _ hs]
        refine ((ih n).mono (Reports.sub fun U hU => ?_) id).wrap _
        simp only [readPartsVariants, hs, if_false, List.mem_cons, List.mem_append] at hU ⊢
        exact hU.imp id .inr
theorem outcomes_dePayload (t : Target) (mode : BuildMode) (env : Env) (W : RTy)
    (hW : CheckingPart W) : (fields : RFields) →
    Outcomes (Reports env (W :: readPartsPayload fields)) True (dePayload t mode env fields)
  | .named fs => by rw [dePayload, readPartsPayload]; exact outcomes_deFields t mode env fs W (.inl hW)
  | .unnamed fs => by rw [dePayload, readPartsPayload]; exact outcomes_deFields t mode env fs W (.inl hW)
  | .unit => by rw [dePayload]; trivial
end
end Derive

/-! ## Encoders -/

namespace Ser

theorem exec_done_err {ε : Type} (e : ε) : (WProg.done (.err e) : WProg ε).exec = ([], .err e) := rfl

/-- An encoder whose outcome is `Ok` or its first fault. -/
def FaultsAre (p : WProg SerErr) (l : List SerErr) : Prop :=
  p.exec.2 = match l.head? with | none => .ok () | some e => .err e

theorem FaultsAre.nil {p : WProg SerErr} (h : p.exec.2 = .ok ()) : FaultsAre p [] := h

theorem exec_andThen_snd (p q : WProg SerErr) :
    (p.andThen q).exec.2 = match p.exec.2 with
      | .ok () => q.exec.2
      | .err e => .err e
      | .panic k => .panic k := by
  induction p with
  | done o => cases o <;> rfl
  | writeAll bs f k ih => exact ih

theorem FaultsAre.andThen {p q : WProg SerErr} {l m : List SerErr} (hp : FaultsAre p l)
    (hq : FaultsAre q m) : FaultsAre (p.andThen q) (l ++ m) := by
  unfold FaultsAre at *
  rw [exec_andThen_snd, hp]
  cases l with
  | nil => exact hq
  | cons e l => rfl

theorem faults_emit (bs : List UInt8) : FaultsAre (emit bs) [] := rfl
theorem faults_str (s : String) : FaultsAre (serStr s) [] := rfl
theorem faults_hint (h : Option Nat) : FaultsAre (serHint h) [] := by cases h <;> rfl
theorem faults_key (k : Val) : FaultsAre (serKey k) (keyFaults k) := by
  cases k <;> rfl

mutual
theorem faults_ser : (v : Val) → FaultsAre (ser v) (faults v)
  | .bool b => by cases b <;> rfl
  | .i8 _ => rfl
  | .i16 _ => rfl
  | .i32 _ => rfl
  | .i64 _ => rfl
  | .i128 _ => rfl
  | .u8 _ => rfl
  | .u16 _ => rfl
  | .u32 _ => rfl
  | .u64 _ => rfl
  | .u128 _ => rfl
  | .f32 _ => rfl
  | .f64 _ => rfl
  | .char _ => rfl
  | .str _ => rfl
  | .bytes _ => rfl
  | .none => rfl
  | .some v => by rw [ser]; exact (faults_emit _).andThen (faults_ser v)
  | .unit => rfl
  | .unitStruct _ => rfl
  | .unitVariant _ _ _ => rfl
  | .newtypeStruct _ v => by rw [ser]; exact faults_ser v
  | .newtypeVariant _ _ _ v => by rw [ser]; exact (faults_emit _).andThen (faults_ser v)
  | .seq h vs => by rw [ser]; exact (faults_hint h).andThen (faults_serAll vs)
  | .tuple vs => by rw [ser]; exact faults_serAll vs
  | .tupleStruct _ vs => by rw [ser]; exact faults_serAll vs
  | .tupleVariant _ _ _ vs => by rw [ser]; exact (faults_emit _).andThen (faults_serAll vs)
  | .map h es => by rw [ser]; exact (faults_hint h).andThen (faults_serEntries es)
  | .struct _ fs => by rw [ser]; exact faults_serFields fs
  | .structVariant _ _ _ fs => by rw [ser]; exact (faults_emit _).andThen (faults_serFields fs)
theorem faults_serAll : (vs : List Val) → FaultsAre (serAll vs) (allFaults vs)
  | [] => rfl
  | v :: vs => by rw [serAll, allFaults]; exact (faults_ser v).andThen (faults_serAll vs)
theorem faults_serEntries : (es : List (Val × Val)) → FaultsAre (serEntries es) (entriesFaults es)
  | [] => rfl
  | (k, v) :: es => by
    rw [serEntries, entriesFaults, List.append_assoc]
    exact (faults_key k).andThen ((faults_ser v).andThen (faults_serEntries es))
theorem faults_serFields : (fs : List (String × Val)) → FaultsAre (serFields fs) (fieldsFaults fs)
  | [] => rfl
  | (_, v) :: fs => by rw [serFields, fieldsFaults]; exact (faults_ser v).andThen (faults_serFields fs)
end
end Ser
end Dlhn
