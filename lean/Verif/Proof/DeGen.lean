import Verif.Proof.ProgGen
import Verif.Proof.De
/-! # Facts about the deserializer for every type, on every input -/
namespace Dlhn.De

open PrefixVarint Spec

/-! ## Predicates closed under sequencing -/

/-- A predicate on decoders that holds of the primitive decoders and is closed
under sequencing holds of the decoder of every type. -/
structure Closed (t : Target) (P : ∀ {α : Type}, Prog DeErr α → Prop) : Prop where
  ok : ∀ {α : Type} (a : α), P (.done (.ok a) : Prog DeErr α)
  err : ∀ {α : Type} (e : DeErr), P (.done (.err e) : Prog DeErr α)
  bind : ∀ {α β : Type} {p : Prog DeErr α} {f : α → Prog DeErr β}, P p → (∀ a, P (f a)) →
    P (Prog.bind p f)
  read : ∀ n, 0 < n → P (readBytes n)
  u16 : P (io decodeU16)
  u32 : P (io decodeU32)
  u64 : P (io decodeU64)
  string : P (deString t)
  byteBuf : P (deByteBuf t)

namespace Closed

variable {t : Target} {P : ∀ {α : Type}, Prog DeErr α → Prop} (hP : Closed t @P)
include hP

theorem bool : P deBool := by
  refine hP.bind (hP.read 1 (by decide)) fun b => ?_
  split
  · exact hP.ok _
  · exact hP.ok _
  · exact hP.err _

theorem char : P (deChar t) := by
  refine hP.bind hP.string fun s => ?_
  split
  · exact hP.err _
  · exact hP.ok _

theorem wrap {α β : Type} {p : Prog DeErr α} (h : P p) (f : α → β) :
    P (p >>= fun a => pure (f a)) := hP.bind h fun _ => hP.ok _

theorem times {α : Type} {p : Prog DeErr α} (h : P p) (n : Nat) : P (times n p) := by
  induction n with
  | zero => exact hP.ok _
  | succ n ih => exact hP.bind h fun _ => hP.bind ih fun _ => hP.ok _

end Closed

mutual
theorem closed_de {t : Target} {P : ∀ {α : Type}, Prog DeErr α → Prop} (hP : Closed t @P) :
    (ty : Ty) → Decodable ty ∨ P (.done (.panic .todo) : Prog DeErr Val) → P (de t ty)
  | .bool, _ => by rw [de]; exact hP.wrap hP.bool _
  | .i8, _ => by rw [de]; exact hP.wrap (hP.wrap (hP.read 1 (by decide)) _) _
  | .i16, _ => by rw [de]; exact hP.wrap (hP.wrap hP.u16 _) _
  | .i32, _ => by rw [de]; exact hP.wrap (hP.wrap hP.u32 _) _
  | .i64, _ => by rw [de]; exact hP.wrap (hP.wrap hP.u64 _) _
  | .i128, _ => by rw [de]; exact hP.err _
  | .u8, _ => by rw [de]; exact hP.wrap (hP.wrap (hP.read 1 (by decide)) _) _
  | .u16, _ => by rw [de]; exact hP.wrap hP.u16 _
  | .u32, _ => by rw [de]; exact hP.wrap hP.u32 _
  | .u64, _ => by rw [de]; exact hP.wrap hP.u64 _
  | .u128, _ => by rw [de]; exact hP.err _
  | .f32, _ => by rw [de]; exact hP.wrap (hP.wrap (hP.read 4 (by decide)) _) _
  | .f64, _ => by rw [de]; exact hP.wrap (hP.wrap (hP.read 8 (by decide)) _) _
  | .char, _ => by rw [de]; exact hP.wrap hP.char _
  | .string, _ => by rw [de]; exact hP.wrap hP.string _
  | .byteBuf, _ => by rw [de]; exact hP.wrap hP.byteBuf _
  | .any, h => by rw [de]; simpa [Decodable] using h
  | .str, h => by rw [de]; simpa [Decodable] using h
  | .bytes, h => by rw [de]; simpa [Decodable] using h
  | .ignoredAny, h => by rw [de]; simpa [Decodable] using h
  | .option ty, h => by
    rw [de]
    refine hP.bind hP.bool fun b => ?_
    split
    · exact hP.wrap (closed_de hP ty (h.imp_left id)) _
    · exact hP.ok _
  | .unit, _ => by rw [de]; exact hP.ok _
  | .unitStruct _, _ => by rw [de]; exact hP.ok _
  | .newtypeStruct _ ty, h => by rw [de]; exact hP.wrap (closed_de hP ty (h.imp_left id)) _
  | .seq ty, h => by
    rw [de]
    exact hP.bind hP.u64 fun _ => hP.wrap (hP.times (closed_de hP ty (h.imp_left id)) _) _
  | .tuple ts, h => by rw [de]; exact hP.wrap (closed_deAll hP ts (h.imp_left id)) _
  | .tupleStruct _ ts, h => by rw [de]; exact hP.wrap (closed_deAll hP ts (h.imp_left id)) _
  | .map kt vt, h => by
    rw [de]
    exact hP.bind hP.u64 fun _ => hP.wrap (hP.times (hP.bind (closed_de hP kt (h.imp_left (·.1)))
      fun _ => hP.wrap (closed_de hP vt (h.imp_left (·.2))) _) _) _
  | .struct _ fs, h => by rw [de]; exact hP.wrap (closed_deFields hP fs (h.imp_left id)) _
  | .enum name vs, h => by
    rw [de]
    exact hP.bind hP.u16 fun i => closed_deVariant hP name i _ vs (h.imp_left id)
theorem closed_deAll {t : Target} {P : ∀ {α : Type}, Prog DeErr α → Prop} (hP : Closed t @P) :
    (ts : List Ty) → AllDecodable ts ∨ P (.done (.panic .todo) : Prog DeErr Val) → P (deAll t ts)
  | [], _ => by rw [deAll]; exact hP.ok _
  | ty :: ts, h => by
    rw [deAll]
    exact hP.bind (closed_de hP ty (h.imp_left (·.1))) fun _ =>
      hP.wrap (closed_deAll hP ts (h.imp_left (·.2))) _
theorem closed_deFields {t : Target} {P : ∀ {α : Type}, Prog DeErr α → Prop} (hP : Closed t @P) :
    (fs : List (String × Ty)) → FieldsDecodable fs ∨ P (.done (.panic .todo) : Prog DeErr Val) →
    P (deFields t fs)
  | [], _ => by rw [deFields]; exact hP.ok _
  | (_, ty) :: fs, h => by
    rw [deFields]
    exact hP.bind (closed_de hP ty (h.imp_left (·.1))) fun _ =>
      hP.wrap (closed_deFields hP fs (h.imp_left (·.2))) _
theorem closed_deVariant {t : Target} {P : ∀ {α : Type}, Prog DeErr α → Prop} (hP : Closed t @P)
    (name : String) (i : UInt16) : (j : Nat) → (vs : List (String × VTy)) →
    VariantsDecodable vs ∨ P (.done (.panic .todo) : Prog DeErr Val) → P (deVariant t name i j vs)
  | _, [], _ => by rw [deVariant]; exact hP.err _
  | j + 1, _ :: vs, h => by
    rw [deVariant]; exact closed_deVariant hP name i j vs (h.imp_left (·.2))
  | 0, (vn, vt) :: _, h => by
    rw [deVariant]; exact closed_dePayload hP name _ vn vt (h.imp_left (·.1))
theorem closed_dePayload {t : Target} {P : ∀ {α : Type}, Prog DeErr α → Prop} (hP : Closed t @P)
    (name : String) (i : UInt32) (vn : String) : (vt : VTy) →
    PayloadDecodable vt ∨ P (.done (.panic .todo) : Prog DeErr Val) → P (dePayload t name i vn vt)
  | .unit, _ => by rw [dePayload]; exact hP.ok _
  | .newtype ty, h => by rw [dePayload]; exact hP.wrap (closed_de hP ty (h.imp_left id)) _
  | .tuple ts, h => by rw [dePayload]; exact hP.wrap (closed_deAll hP ts (h.imp_left id)) _
  | .struct fs, h => by rw [dePayload]; exact hP.wrap (closed_deFields hP fs (h.imp_left id)) _
end

/-! ## Strictness on 64-bit targets -/

section
attribute [local irreducible] PrefixVarint.leadingOnes

theorem strict_prefix : Prog.Strict id decodePrefix := ⟨fun _ => rfl, fun _ => trivial⟩

theorem strict_u16 : Prog.Strict id decodeU16 := by
  refine strict_prefix.bind fun p => ?_
  split <;> first | trivial | exact ⟨fun _ => rfl, fun _ => trivial⟩
theorem strict_u32 : Prog.Strict id decodeU32 := by
  refine strict_prefix.bind fun p => ?_
  split <;> first | trivial | exact ⟨fun _ => rfl, fun _ => trivial⟩
theorem strict_u64 : Prog.Strict id decodeU64 := by
  refine strict_prefix.bind fun p => ?_
  split <;> first | trivial | exact ⟨fun _ => rfl, fun _ => trivial⟩

theorem total_prefix (t : Target) : Prog.Total t decodePrefix := fun _ => trivial
theorem total_u16 (t : Target) : Prog.Total t decodeU16 := by
  refine (total_prefix t).bind fun p => ?_
  split <;> first | trivial | exact fun _ => trivial
theorem total_u32 (t : Target) : Prog.Total t decodeU32 := by
  refine (total_prefix t).bind fun p => ?_
  split <;> first | trivial | exact fun _ => trivial
theorem total_u64 (t : Target) : Prog.Total t decodeU64 := by
  refine (total_prefix t).bind fun p => ?_
  split <;> first | trivial | exact fun _ => trivial

theorem allocLe_prefix (b : Nat) : Prog.AllocLe b decodePrefix := fun _ => trivial
theorem allocLe_u16 (b : Nat) : Prog.AllocLe b decodeU16 := by
  refine (allocLe_prefix b).bind fun p => ?_
  split <;> first | trivial | exact fun _ => trivial
theorem allocLe_u32 (b : Nat) : Prog.AllocLe b decodeU32 := by
  refine (allocLe_prefix b).bind fun p => ?_
  split <;> first | trivial | exact fun _ => trivial
theorem allocLe_u64 (b : Nat) : Prog.AllocLe b decodeU64 := by
  refine (allocLe_prefix b).bind fun p => ?_
  split <;> first | trivial | exact fun _ => trivial
end

theorem asUsize_w64 {t : Target} (h : t.ptr = .w64) (x : UInt64) : t.asUsize x = x.toNat := by
  rw [Target.asUsize, h]
  exact Nat.mod_eq_of_lt x.toNat_lt

theorem strict_string {t : Target} (h : t.ptr = .w64) : Prog.Strict orRead (deString t) := by
  refine (strict_u64.mapErr orRead).bind fun len => ?_
  split
  · refine Prog.Strict.bind ⟨fun _ => rfl, fun _ => trivial⟩ fun v => ?_
    split <;> trivial
  · refine ⟨fun _ => rfl, fun bs hb => ?_, fun bs => ?_⟩
    · simp only
      split
      · rfl
      · rw [asUsize_w64 h, if_pos (by omega)]
        rfl
    · simp only
      split
      · trivial
      · split <;> trivial

theorem strict_loop (len lim fuel : Nat) (result : List UInt8) (pos : Nat) :
    Prog.Strict orRead (byteBufLoop len lim fuel result pos) := by
  induction fuel generalizing result pos with
  | zero => trivial
  | succ fuel ih =>
    rw [byteBufLoop]
    split
    · exact Prog.Strict.bind ⟨fun _ => rfl, fun _ => trivial⟩ fun v => ih _ _
    · trivial

theorem strict_byteBuf (t : Target) : Prog.Strict orRead (deByteBuf t) := by
  refine (strict_u64.mapErr orRead).bind fun len => ?_
  split
  · exact strict_loop _ _ _ _ _
  · exact Prog.Strict.bind ⟨fun _ => rfl, fun _ => trivial⟩ fun v => trivial

theorem closed_strict {t : Target} (h : t.ptr = .w64) :
    Closed t (fun {_} p => Prog.Strict orRead p) where
  ok _ := trivial
  err _ := trivial
  bind hp hf := Prog.Strict.bind hp hf
  read _ _ := ⟨fun _ => rfl, fun _ => trivial⟩
  u16 := strict_u16.mapErr orRead
  u32 := strict_u32.mapErr orRead
  u64 := strict_u64.mapErr orRead
  string := strict_string h
  byteBuf := strict_byteBuf t

/-- On 64-bit targets every decoder is strict. -/
theorem strict_de {t : Target} (h : t.ptr = .w64) (ty : Ty) : Prog.Strict orRead (de t ty) :=
  closed_de (closed_strict h) ty (.inr trivial)

/-! ## No panic, bounded allocation requests -/

theorem total_string (t : Target) : Prog.Total t (deString t) := by
  refine ((total_u64 t).mapErr orRead).bind fun len => ?_
  split
  · refine Prog.Total.bind (fun _ => trivial) fun v => ?_
    split <;> trivial
  · intro bs
    simp only
    split
    · trivial
    · split <;> trivial

theorem total_loop (t : Target) (len lim fuel : Nat) (result : List UInt8) (pos : Nat)
    (hpos : pos = result.length) (hl : lim ≤ len) (hf : lim < fuel + result.length)
    (hf0 : 0 < fuel) :
    Prog.Total t (byteBufLoop len lim fuel result pos) := by
  induction fuel generalizing result pos with
  | zero => omega
  | succ fuel ih =>
    rw [byteBufLoop]
    split
    · refine Prog.Total.bind (fun _ => trivial) fun v => ih _ _ ?_ ?_ ?_
      · simp [hpos]
      · simp; omega
      · omega
    · trivial

theorem asUsize_le (t : Target) (x : UInt64) : t.asUsize x ≤ x.toNat := Nat.mod_le _ _

theorem total_byteBuf (t : Target) (hm : 4096 ≤ t.memLimit) : Prog.Total t (deByteBuf t) := by
  refine ((total_u64 t).mapErr orRead).bind fun len => ?_
  split
  · refine ⟨allocate_ok hm (by omega), ?_⟩
    exact total_loop t _ _ _ _ _ rfl (asUsize_le t len) (by simp) (by omega)
  · rename_i hle
    refine ⟨allocate_ok hm (Nat.not_lt.mp hle), ?_⟩
    exact Prog.Total.bind (fun _ => trivial) fun v => trivial

theorem closed_total {t : Target} (hm : 4096 ≤ t.memLimit) :
    Closed t (fun {_} p => Prog.Total t p) where
  ok _ := trivial
  err _ := trivial
  bind hp hf := Prog.Total.bind hp hf
  read _ _ := fun _ => trivial
  u16 := (total_u16 t).mapErr orRead
  u32 := (total_u32 t).mapErr orRead
  u64 := (total_u64 t).mapErr orRead
  string := total_string t
  byteBuf := total_byteBuf t hm

theorem total_de {t : Target} (hm : 4096 ≤ t.memLimit) (ty : Ty) (h : Decodable ty) :
    Prog.Total t (de t ty) := closed_de (closed_total hm) ty (.inl h)

theorem allocLe_string (t : Target) (b : Nat) : Prog.AllocLe b (deString t) := by
  refine ((allocLe_u64 b).mapErr orRead).bind fun len => ?_
  split
  · refine Prog.AllocLe.bind (fun _ => trivial) fun v => ?_
    split <;> trivial
  · intro bs
    simp only
    split
    · trivial
    · split <;> trivial

theorem allocLe_loop (b len lim fuel : Nat) (result : List UInt8) (pos : Nat) :
    Prog.AllocLe b (byteBufLoop len lim fuel result pos) := by
  induction fuel generalizing result pos with
  | zero => trivial
  | succ fuel ih =>
    rw [byteBufLoop]
    split
    · exact Prog.AllocLe.bind (fun _ => trivial) fun v => ih _ _
    · trivial

theorem allocLe_byteBuf (t : Target) : Prog.AllocLe 4096 (deByteBuf t) := by
  refine ((allocLe_u64 _).mapErr orRead).bind fun len => ?_
  split
  · exact ⟨Nat.le_refl _, allocLe_loop _ _ _ _ _ _⟩
  · rename_i hle
    exact ⟨Nat.not_lt.mp hle, Prog.AllocLe.bind (fun _ => trivial) fun v => trivial⟩

theorem closed_allocLe (t : Target) : Closed t (fun {_} p => Prog.AllocLe 4096 p) where
  ok _ := trivial
  err _ := trivial
  bind hp hf := Prog.AllocLe.bind hp hf
  read _ _ := fun _ => trivial
  u16 := (allocLe_u16 _).mapErr orRead
  u32 := (allocLe_u32 _).mapErr orRead
  u64 := (allocLe_u64 _).mapErr orRead
  string := allocLe_string t _
  byteBuf := allocLe_byteBuf t

theorem allocLe_de (t : Target) (ty : Ty) : Prog.AllocLe 4096 (de t ty) :=
  closed_de (closed_allocLe t) ty (.inr trivial)

end Dlhn.De
