import Verif.Spec.Adjacent
import Verif.Proof.Attrs
import Verif.Proof.SerIf
/-! # Facts about adjacently tagged enums -/
namespace Dlhn
open De PrefixVarint Spec

theorem run_variantIndex (t : Target) (n : Nat) : (variantIndex n).run t =
    Prog.bind (io decodeU16) fun i =>
      if i.toNat < n then .done (.ok i) else .done (.err (unknownVariant i.toNat n)) := by
  rw [variantIndex, Impl.run, Impl.run, deU16]
  congr; funext i
  split <;> rw [Impl.run]

theorem run_adjacentTagDe (t : Target) (g : Tagging) (name : String) (vs : List (String × VTy)) :
    (adjacentTagDe g name vs).run t = (variantIndex vs.length).run t := by
  cases g
  · rfl
  · rw [adjacentTagDe, Impl.run]
    show Prog.bind _ (fun i => Prog.done (.ok i)) = _
    exact Derive.bind_pure_id _

/-- The content of one variant. -/
def adjacentPayload (t : Target) (name : String) (i : UInt32) (vn : String) : VTy → Prog DeErr Val
  | .unit => .done (.panic .todo)
  | .newtype ty => dePayload t name i vn (.newtype ty)
  | .tuple ts => dePayload t name i vn (.tuple ts)
  | .struct _ => .done (.panic .todo)

theorem run_adjacentContent (t : Target) (name : String) (i : UInt32) (vn : String) (vt : VTy)
    (h : PayloadDistinct vt) :
    (adjacentContent name i vn vt).run t = adjacentPayload t name i vn vt := by
  cases vt with
  | unit => rw [adjacentContent, Impl.run, adjacentPayload]
  | newtype ty =>
    rw [adjacentContent, Impl.run, adjacentPayload, dePayload, run_implOf t ty h]
    congr
  | tuple ts =>
    rw [adjacentContent, Impl.run, Impl.run, adjacentPayload, dePayload, run_implAll t ts h,
      Prog.bind_assoc]
    congr
  | struct fs => rw [adjacentContent, Impl.run, adjacentPayload]

theorem payloadDistinct_get (vs : List (String × VTy)) (h : VariantsDistinct vs) (j : Nat)
    (vn : String) (vt : VTy) (hj : vs[j]? = some (vn, vt)) : PayloadDistinct vt := by
  induction vs generalizing j with
  | nil => simp at hj
  | cons a vs ih =>
    obtain ⟨an, at'⟩ := a
    cases j with
    | zero =>
      simp only [List.getElem?_cons_zero, Option.some.injEq, Prod.mk.injEq] at hj
      obtain ⟨rfl, rfl⟩ := hj
      exact h.1
    | succ j => exact ih h.2 j (by simpa using hj)

theorem run_adjacentDe (t : Target) (g : Tagging) (tag content name : String)
    (vs : List (String × VTy)) (htc : tag ≠ content) (hd : VariantsDistinct vs) :
    (adjacentDe g tag content name vs).run t = Prog.bind (io decodeU16) fun i =>
      match vs[i.toNat]? with
      | some (vn, vt) => adjacentPayload t name i.toUInt32 vn vt
      | none => .done (.err (unknownVariant i.toNat vs.length)) := by
  rw [adjacentDe, Impl.run, visitAdjacent, FieldsImpl.run]
  dsimp only
  rw [if_pos rfl, FieldsImpl.run, run_adjacentTagDe, run_variantIndex, Prog.bind_assoc]
  congr; funext i
  by_cases h : i.toNat < vs.length
  · rw [if_pos h, Prog.bind, FieldsImpl.run]
    dsimp only
    rw [if_neg (Ne.symm htc), if_pos rfl]
    rw [List.getElem?_eq_getElem h]
    dsimp only
    rw [FieldsImpl.run, run_adjacentContent _ _ _ (vs[i.toNat]).1 (vs[i.toNat]).2
      (payloadDistinct_get vs hd i.toNat _ _ (List.getElem?_eq_getElem h))]
    refine Eq.trans ?_ (Derive.bind_pure_id _)
    congr
  · rw [if_neg h, List.getElem?_eq_none (by omega)]
    rfl

theorem deVariant_get (t : Target) (name : String) (i : UInt16) (vs : List (String × VTy)) (j : Nat) :
    deVariant t name i j vs = match vs[j]? with
      | some (vn, vt) => dePayload t name i.toUInt32 vn vt
      | none => .done (.err (unknownVariant i.toNat (i.toNat - (j - vs.length)))) := by
  induction vs generalizing j with
  | nil => cases j <;> rfl
  | cons a vs ih =>
    cases j with
    | zero => rw [deVariant]; rfl
    | succ j => rw [deVariant, ih, List.length_cons, Nat.add_sub_add_right]; rfl

theorem deVariant_own (t : Target) (name : String) (i : UInt16) (vs : List (String × VTy)) :
    deVariant t name i i.toNat vs = match vs[i.toNat]? with
      | some (vn, vt) => dePayload t name i.toUInt32 vn vt
      | none => .done (.err (unknownVariant i.toNat vs.length)) := by
  rw [deVariant_get]
  cases h : vs[i.toNat]? with
  | some p => rfl
  | none =>
    have := List.getElem?_eq_none_iff.mp h
    dsimp only
    rw [show i.toNat - (i.toNat - vs.length) = vs.length by omega]

theorem varint_64_16 (n : Nat) (h : n < 16384) : varint 64 n = varint 16 n := by
  have : groups n ≤ 2 := (groups_le_iff 1 n).mpr h
  simp only [varint]
  rw [if_pos (by omega), if_pos (by omega)]

theorem andThen_skip_prog : (p : WProg SerErr) → p.andThen .skip = p
  | .done (.ok ()) => rfl
  | .done (.err _) => rfl
  | .done (.panic _) => rfl
  | .writeAll bs f k => by rw [WProg.andThen, andThen_skip_prog k]

theorem variantOf_has (t : Target) (name : String) : (vs : List (String × VTy)) → (k : Nat) →
    (v : Val) → HasVariant t name k vs v → (variantOf v).isSome
  | [], _, _, h => h.elim
  | (vn, vt) :: vs, k, v, h => by
    rcases h with h | h
    · cases vt with
      | unit => rw [HasPayload] at h; subst h; rfl
      | newtype ty => obtain ⟨w, rfl, -⟩ := h; rfl
      | tuple ts => obtain ⟨w, rfl, -⟩ := h; rfl
      | struct fs => obtain ⟨w, rfl, -⟩ := h; rfl
    · exact variantOf_has t name vs (k + 1) v h

end Dlhn
