import Verif.Model.RecSer
import Verif.Proof.Stack
/-! # Serializing values of recursive types: helper lemmas -/
namespace Dlhn.Rec

open Spec Ser

set_option linter.unusedSectionVars false

/-! ## The same or out of stack -/

theorem wbelow_eachVal {f : Val → WProg SerErr} (hf : ∀ v, WBelow (f v) (ser v)) :
    ∀ vs, WBelow (eachVal f vs) (serAll vs)
  | [] => by rw [eachVal, serAll]; exact .inl rfl
  | v :: vs => by rw [eachVal, serAll]; exact (hf v).andThen (wbelow_eachVal hf vs)

theorem wbelow_eachPair {f : Val → WProg SerErr} (hf : ∀ v, WBelow (f v) (ser v)) :
    ∀ es, WBelow (eachPair f es) (serEntries es)
  | [] => by rw [eachPair, serEntries]; exact .inl rfl
  | (k, v) :: es => by
    rw [eachPair, serEntries]
    exact WBelow.andThen (.inl rfl) ((hf v).andThen (wbelow_eachPair hf es))

section
variable {call : String → Val → WProg SerErr} (hc : ∀ n v, WBelow (call n v) (ser v))
include hc

mutual
theorem wbelow_body : (T : RecTy) → (v : Val) → WBelow (serBody call T v) (ser v)
  | .leaf ty, v => by rw [serBody] <;> first | exact .inl rfl | simp
  | .named n, v => by rw [serBody]; exact hc n v
  | .option T, v => by
    cases v with
    | some w => rw [serBody, ser]; exact WBelow.andThen (.inl rfl) (wbelow_body T w)
    | _ => rw [serBody] <;> first | exact .inl rfl | simp
  | .newtypeStruct _ T, v => by
    cases v with
    | newtypeStruct _ w => rw [serBody, ser]; exact wbelow_body T w
    | _ => rw [serBody] <;> first | exact .inl rfl | simp
  | .seq T, v => by
    cases v with
    | seq h vs =>
      rw [serBody, ser]
      exact WBelow.andThen (.inl rfl) (wbelow_eachVal (fun w => wbelow_body T w) vs)
    | _ => rw [serBody] <;> first | exact .inl rfl | simp
  | .tuple Ts, v => by
    cases v with
    | tuple vs => rw [serBody, ser]; exact wbelow_all Ts vs
    | _ => rw [serBody] <;> first | exact .inl rfl | simp
  | .tupleStruct _ Ts, v => by
    cases v with
    | tupleStruct _ vs => rw [serBody, ser]; exact wbelow_all Ts vs
    | _ => rw [serBody] <;> first | exact .inl rfl | simp
  | .map _ T, v => by
    cases v with
    | map h es =>
      rw [serBody, ser]
      exact WBelow.andThen (.inl rfl) (wbelow_eachPair (fun w => wbelow_body T w) es)
    | _ => rw [serBody] <;> first | exact .inl rfl | simp
  | .struct _ fts, v => by
    cases v with
    | struct _ fs => rw [serBody, ser]; exact wbelow_fields fts fs
    | _ => rw [serBody] <;> first | exact .inl rfl | simp
  | .enum _ vs, v => by rw [serBody]; exact wbelow_variant _ vs v
theorem wbelow_all : (Ts : List RecTy) → (vs : List Val) →
    WBelow (serEach call Ts vs) (serAll vs)
  | [], vs => by rw [serEach] <;> first | exact .inl rfl | simp
  | _ :: _, [] => by rw [serEach] <;> first | exact .inl rfl | simp
  | T :: Ts, v :: vs => by
    rw [serEach, serAll]; exact (wbelow_body T v).andThen (wbelow_all Ts vs)
theorem wbelow_fields : (fts : List (String × RecTy)) → (fs : List (String × Val)) →
    WBelow (serNamedFields call fts fs) (serFields fs)
  | [], fs => by rw [serNamedFields] <;> first | exact .inl rfl | simp
  | _ :: _, [] => by rw [serNamedFields] <;> first | exact .inl rfl | simp
  | (_, T) :: fts, (_, v) :: fs => by
    rw [serNamedFields, serFields]; exact (wbelow_body T v).andThen (wbelow_fields fts fs)
theorem wbelow_variant : (n : Nat) → (vs : List (String × RecVTy)) → (v : Val) →
    WBelow (serVariant call n vs v) (ser v)
  | n + 1, _ :: vs, v => by rw [serVariant]; exact wbelow_variant n vs v
  | 0, (_, vt) :: _, v => by rw [serVariant]; exact wbelow_payload vt v
  | _, [], v => by rw [serVariant]; exact .inl rfl
theorem wbelow_payload : (vt : RecVTy) → (v : Val) → WBelow (serPayload call vt v) (ser v)
  | .unit, v => by rw [serPayload] <;> first | exact .inl rfl | simp
  | .newtype T, v => by
    cases v with
    | newtypeVariant _ i _ w => rw [serPayload, ser]; exact WBelow.andThen (.inl rfl) (wbelow_body T w)
    | _ => rw [serPayload] <;> first | exact .inl rfl | simp
  | .tuple Ts, v => by
    cases v with
    | tupleVariant _ i _ vs => rw [serPayload, ser]; exact WBelow.andThen (.inl rfl) (wbelow_all Ts vs)
    | _ => rw [serPayload] <;> first | exact .inl rfl | simp
  | .struct fts, v => by
    cases v with
    | structVariant _ i _ fs =>
      rw [serPayload, ser]; exact WBelow.andThen (.inl rfl) (wbelow_fields fts fs)
    | _ => rw [serPayload] <;> first | exact .inl rfl | simp
end
end

theorem wbelow_named (defs : Defs) : (d : Nat) → (n : String) → (v : Val) →
    WBelow (serNamed defs d n v) (ser v)
  | 0, _, _ => .inr (by rw [serNamed]; exact ⟨rfl, List.nil_prefix⟩)
  | d + 1, n, v => by rw [serNamed]; exact wbelow_body (wbelow_named defs d) (defs n) v

/-! ## Which values are written -/

theorem variant_payload {t : Target} {N : String → Val → Prop} {name : String} {k : Nat}
    {vn : String} {vt : RecVTy} {v : Val} (hk : k < 2 ^ 32)
    (h : HasRecPayload t N name (UInt32.ofNat k) vn vt v) : variantOf v = k := by
  have hk : (UInt32.ofNat k).toNat = k := by
    rw [UInt32.toNat_ofNat']
    exact Nat.mod_eq_of_lt hk
  cases vt <;> first
    | (obtain rfl := h; exact hk)
    | (obtain ⟨_, rfl, -⟩ := h; exact hk)

theorem variant_ge {t : Target} {N : String → Val → Prop} {name : String} : (k : Nat) →
    (vs : List (String × RecVTy)) → (v : Val) → k + vs.length ≤ 2 ^ 32 →
    HasRecVariant t N name k vs v → k ≤ variantOf v
  | _, [], _, _, h => h.elim
  | k, (vn, vt) :: vs, v, hl, h => by
    simp only [List.length_cons] at hl
    rcases h with h | h
    · rw [variant_payload (by omega) h]; omega
    · have := variant_ge (k + 1) vs v (by omega) h
      omega

/-- `call` writes the values `N` of named types, and of the values `K` no others. -/
structure WritesJust (N K : String → Val → Prop) (call : String → Val → WProg SerErr) : Prop where
  enough : ∀ n v, N n v → call n v = ser v
  only : ∀ n v, K n v → (call n v).exec.2 = .ok () → N n v

theorem eachVal_eq {f : Val → WProg SerErr} : ∀ {vs : List Val}, (∀ v ∈ vs, f v = ser v) →
    eachVal f vs = serAll vs
  | [], _ => by rw [eachVal, serAll]
  | v :: vs, h => by
    rw [eachVal, serAll, h v (by simp), eachVal_eq (vs := vs) fun w hw => h w (by simp [hw])]

theorem eachPair_eq {f : Val → WProg SerErr} : ∀ {es : List (Val × Val)},
    (∀ e ∈ es, f e.2 = ser e.2) → eachPair f es = serEntries es
  | [], _ => by rw [eachPair, serEntries]
  | (k, v) :: es, h => by
    rw [eachPair, serEntries, h (k, v) (by simp),
      eachPair_eq (es := es) fun w hw => h w (by simp [hw])]

theorem eachVal_ok {f : Val → WProg SerErr} : ∀ {vs : List Val},
    (eachVal f vs).exec.2 = .ok () → ∀ v ∈ vs, (f v).exec.2 = .ok ()
  | [], _ => by simp
  | v :: vs, h => by
    rw [eachVal, WProg.andThen_ok_iff] at h
    intro w hw
    rcases List.mem_cons.mp hw with rfl | hw
    · exact h.1
    · exact eachVal_ok h.2 w hw

theorem eachPair_ok {f : Val → WProg SerErr} : ∀ {es : List (Val × Val)},
    (eachPair f es).exec.2 = .ok () → ∀ e ∈ es, (f e.2).exec.2 = .ok ()
  | [], _ => by simp
  | (k, v) :: es, h => by
    rw [eachPair, WProg.andThen_ok_iff, WProg.andThen_ok_iff] at h
    intro w hw
    rcases List.mem_cons.mp hw with rfl | hw
    · exact h.2.1
    · exact eachPair_ok h.2.2 w hw

section
variable {t : Target} {N K : String → Val → Prop} {call : String → Val → WProg SerErr}
  (hc : WritesJust N K call)
include hc

mutual
theorem eq_body : (T : RecTy) → (v : Val) → RecSupported T → HasRec t N T v →
    serBody call T v = ser v
  | .leaf ty, v, _, _ => by rw [serBody] <;> simp
  | .named n, v, _, h => by rw [serBody]; exact hc.enough n v h
  | .option T, v, hs, h => by
    rcases h with rfl | ⟨w, rfl, h⟩
    · rw [serBody] <;> simp
    · rw [serBody, ser, eq_body T w hs h]
  | .newtypeStruct _ T, v, hs, h => by
    obtain ⟨w, rfl, h⟩ := h
    rw [serBody, ser, eq_body T w hs h]
  | .seq T, v, hs, h => by
    obtain ⟨vs, rfl, -, h⟩ := h
    rw [serBody, ser, eachVal_eq fun w hw => eq_body T w hs (h w hw)]
  | .tuple Ts, v, hs, h => by
    obtain ⟨vs, rfl, h⟩ := h
    rw [serBody, ser, eq_all Ts vs hs h]
  | .tupleStruct _ Ts, v, hs, h => by
    obtain ⟨vs, rfl, h⟩ := h
    rw [serBody, ser, eq_all Ts vs hs h]
  | .map _ T, v, hs, h => by
    obtain ⟨es, rfl, -, h⟩ := h
    rw [serBody, ser, eachPair_eq fun e he => eq_body T e.2 hs.2 (h e he).2]
  | .struct _ fts, v, hs, h => by
    obtain ⟨fs, rfl, h⟩ := h
    rw [serBody, ser, eq_fields fts fs hs h]
  | .enum name vs, v, hs, h => by
    rw [serBody]
    have := eq_variant name 0 vs v hs.2 (by have := hs.1; omega) h
    rwa [Nat.sub_zero] at this
theorem eq_all : (Ts : List RecTy) → (vs : List Val) → AllRecSupported Ts →
    HasRecAll t N Ts vs → serEach call Ts vs = serAll vs
  | [], vs, _, h => by obtain rfl := h; rw [serEach]; simp
  | T :: Ts, vs, hs, h => by
    obtain ⟨w, ws, rfl, h1, h2⟩ := h
    rw [serEach, serAll, eq_body T w hs.1 h1, eq_all Ts ws hs.2 h2]
theorem eq_fields : (fts : List (String × RecTy)) → (fs : List (String × Val)) →
    FieldsRecSupported fts → HasRecFields t N fts fs → serNamedFields call fts fs = serFields fs
  | [], fs, _, h => by obtain rfl := h; rw [serNamedFields]; simp
  | (n, T) :: fts, fs, hs, h => by
    obtain ⟨w, ws, rfl, h1, h2⟩ := h
    rw [serNamedFields, serFields, eq_body T w hs.1 h1, eq_fields fts ws hs.2 h2]
theorem eq_variant (name : String) : (k : Nat) → (vs : List (String × RecVTy)) → (v : Val) →
    VariantsRecSupported vs → k + vs.length ≤ 2 ^ 32 → HasRecVariant t N name k vs v →
    serVariant call (variantOf v - k) vs v = ser v
  | _, [], _, _, _, h => h.elim
  | k, (vn, vt) :: vs, v, hs, hl, h => by
    simp only [List.length_cons] at hl
    rcases h with h | h
    · rw [variant_payload (by omega) h, Nat.sub_self, serVariant]
      exact eq_payload name _ vn vt v hs.1 h
    · have hv : k < variantOf v := variant_ge (k + 1) vs v (by omega) h
      obtain ⟨m, hm⟩ : ∃ m, variantOf v - k = m + 1 := ⟨variantOf v - k - 1, by omega⟩
      rw [hm, serVariant, show m = variantOf v - (k + 1) by omega]
      exact eq_variant name (k + 1) vs v hs.2 (by omega) h
theorem eq_payload (name : String) (i : UInt32) (vn : String) : (vt : RecVTy) → (v : Val) →
    PayloadRecSupported vt → HasRecPayload t N name i vn vt v → serPayload call vt v = ser v
  | .unit, v, _, _ => by rw [serPayload] <;> simp
  | .newtype T, v, hs, h => by
    obtain ⟨w, rfl, h⟩ := h
    rw [serPayload, ser, eq_body T w hs h]
  | .tuple Ts, v, hs, h => by
    obtain ⟨vs, rfl, h⟩ := h
    rw [serPayload, ser, eq_all Ts vs hs h]
  | .struct fts, v, hs, h => by
    obtain ⟨fs, rfl, h⟩ := h
    rw [serPayload, ser, eq_fields fts fs hs h]
end

mutual
theorem only_body : (T : RecTy) → (v : Val) → RecSupported T → HasRec t K T v →
    (serBody call T v).exec.2 = .ok () → HasRec t N T v
  | .leaf ty, v, _, h, _ => h
  | .named n, v, _, h, hx => by rw [serBody] at hx; exact hc.only n v h hx
  | .option T, v, hs, h, hx => by
    rcases h with rfl | ⟨w, rfl, h⟩
    · exact .inl rfl
    · rw [serBody, WProg.andThen_ok_iff] at hx
      exact .inr ⟨w, rfl, only_body T w hs h hx.2⟩
  | .newtypeStruct _ T, v, hs, h, hx => by
    obtain ⟨w, rfl, h⟩ := h
    rw [serBody] at hx
    exact ⟨w, rfl, only_body T w hs h hx⟩
  | .seq T, v, hs, h, hx => by
    obtain ⟨vs, rfl, hl, h⟩ := h
    rw [serBody, WProg.andThen_ok_iff] at hx
    exact ⟨vs, rfl, hl, fun w hw => only_body T w hs (h w hw) (eachVal_ok hx.2 w hw)⟩
  | .tuple Ts, v, hs, h, hx => by
    obtain ⟨vs, rfl, h⟩ := h
    rw [serBody] at hx
    exact ⟨vs, rfl, only_all Ts vs hs h hx⟩
  | .tupleStruct _ Ts, v, hs, h, hx => by
    obtain ⟨vs, rfl, h⟩ := h
    rw [serBody] at hx
    exact ⟨vs, rfl, only_all Ts vs hs h hx⟩
  | .map _ T, v, hs, h, hx => by
    obtain ⟨es, rfl, hl, h⟩ := h
    rw [serBody, WProg.andThen_ok_iff] at hx
    exact ⟨es, rfl, hl, fun e he =>
      ⟨(h e he).1, only_body T e.2 hs.2 (h e he).2 (eachPair_ok hx.2 e he)⟩⟩
  | .struct _ fts, v, hs, h, hx => by
    obtain ⟨fs, rfl, h⟩ := h
    rw [serBody] at hx
    exact ⟨fs, rfl, only_fields fts fs hs h hx⟩
  | .enum name vs, v, hs, h, hx => by
    rw [serBody] at hx
    exact only_variant name 0 vs v hs.2 (by have := hs.1; omega) h (by rwa [Nat.sub_zero])
theorem only_all : (Ts : List RecTy) → (vs : List Val) → AllRecSupported Ts →
    HasRecAll t K Ts vs → (serEach call Ts vs).exec.2 = .ok () → HasRecAll t N Ts vs
  | [], vs, _, h, _ => h
  | T :: Ts, vs, hs, h, hx => by
    obtain ⟨w, ws, rfl, h1, h2⟩ := h
    rw [serEach, WProg.andThen_ok_iff] at hx
    exact ⟨w, ws, rfl, only_body T w hs.1 h1 hx.1, only_all Ts ws hs.2 h2 hx.2⟩
theorem only_fields : (fts : List (String × RecTy)) → (fs : List (String × Val)) →
    FieldsRecSupported fts → HasRecFields t K fts fs →
    (serNamedFields call fts fs).exec.2 = .ok () → HasRecFields t N fts fs
  | [], fs, _, h, _ => h
  | (n, T) :: fts, fs, hs, h, hx => by
    obtain ⟨w, ws, rfl, h1, h2⟩ := h
    rw [serNamedFields, WProg.andThen_ok_iff] at hx
    exact ⟨w, ws, rfl, only_body T w hs.1 h1 hx.1, only_fields fts ws hs.2 h2 hx.2⟩
theorem only_variant (name : String) : (k : Nat) → (vs : List (String × RecVTy)) → (v : Val) →
    VariantsRecSupported vs → k + vs.length ≤ 2 ^ 32 → HasRecVariant t K name k vs v →
    (serVariant call (variantOf v - k) vs v).exec.2 = .ok () → HasRecVariant t N name k vs v
  | _, [], _, _, _, h, _ => h.elim
  | k, (vn, vt) :: vs, v, hs, hl, h, hx => by
    simp only [List.length_cons] at hl
    rcases h with h | h
    · rw [variant_payload (by omega) h, Nat.sub_self, serVariant] at hx
      exact .inl (only_payload name _ vn vt v hs.1 h hx)
    · have hv : k < variantOf v := variant_ge (k + 1) vs v (by omega) h
      obtain ⟨m, hm⟩ : ∃ m, variantOf v - k = m + 1 := ⟨variantOf v - k - 1, by omega⟩
      rw [hm, serVariant, show m = variantOf v - (k + 1) by omega] at hx
      exact .inr (only_variant name (k + 1) vs v hs.2 (by omega) h hx)
theorem only_payload (name : String) (i : UInt32) (vn : String) : (vt : RecVTy) → (v : Val) →
    PayloadRecSupported vt → HasRecPayload t K name i vn vt v →
    (serPayload call vt v).exec.2 = .ok () → HasRecPayload t N name i vn vt v
  | .unit, v, _, h, _ => h
  | .newtype T, v, hs, h, hx => by
    obtain ⟨w, rfl, h⟩ := h
    rw [serPayload, WProg.andThen_ok_iff] at hx
    exact ⟨w, rfl, only_body T w hs h hx.2⟩
  | .tuple Ts, v, hs, h, hx => by
    obtain ⟨vs, rfl, h⟩ := h
    rw [serPayload, WProg.andThen_ok_iff] at hx
    exact ⟨vs, rfl, only_all Ts vs hs h hx.2⟩
  | .struct fts, v, hs, h, hx => by
    obtain ⟨fs, rfl, h⟩ := h
    rw [serPayload, WProg.andThen_ok_iff] at hx
    exact ⟨fs, rfl, only_fields fts fs hs h hx.2⟩
end
end

/-- With room for `d` calls exactly the values nested at most `d` deep are written. -/
theorem writes_deep (t : Target) {defs : Defs} (hs : ∀ n, RecSupported (defs n)) :
    (d e : Nat) → WritesJust (Deep t defs d) (Deep t defs e) (serNamed defs d)
  | 0, e => ⟨fun _ _ h => h.elim, fun n v _ hx => by rw [serNamed] at hx; cases hx⟩
  | d + 1, 0 => ⟨fun n v h => by
      rw [serNamed]; exact eq_body (writes_deep t hs d 0) (defs n) v (hs n) h,
      fun _ _ h _ => h.elim⟩
  | d + 1, e + 1 => ⟨fun n v h => by
      rw [serNamed]; exact eq_body (writes_deep t hs d e) (defs n) v (hs n) h,
      fun n v h hx => by
        rw [serNamed] at hx; exact only_body (writes_deep t hs d e) (defs n) v (hs n) h hx⟩

end Dlhn.Rec
