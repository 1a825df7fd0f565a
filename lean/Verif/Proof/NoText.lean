import Verif.Proof.DeExact
import Verif.Proof.Targets
import Verif.Spec.NoText
/-! # Lemmas about strings, buffers and types without text on every target -/
namespace Dlhn
open Spec

namespace De

/-- `deserialize_string` on every target. -/
theorem exec_deString_any (t : Target) (bs : List UInt8) :
    Prog.exec t .eof (deString t) bs = match varintDecode 64 bs with
      | none => .err .read
      | some (n, body) =>
        match fromUtf8 (body.take n) with
        | some s => if (body.take n).length = n % 2 ^ t.ptr.bits then .ok (s, body.drop n)
          else .err .read
        | none => .err .read := by
  have hb : 2 ^ 32 ≤ 2 ^ t.ptr.bits := by cases t.ptr <;> decide
  rw [deString, Prog.bind_eq, Prog.exec_bind, exec_u64]
  cases hd : varintDecode 64 bs with
  | none => rfl
  | some vr =>
    obtain ⟨n, body⟩ := vr
    have hn := varintDecode_lt (by simp) hd
    have hnat : (UInt64.ofNat n).toNat = n := by rw [UInt64.toNat_ofNat', Nat.mod_eq_of_lt hn]
    have hus : t.asUsize (UInt64.ofNat n) = n % 2 ^ t.ptr.bits := by rw [Target.asUsize, hnat]
    simp only [ofDec, Prog.next_ok]
    split
    · rename_i hlt
      have hlt : n < 128 := by
        have : (UInt64.ofNat n).toNat < (128 : UInt64).toNat := hlt
        rwa [hnat] at this
      have hmod : n % 2 ^ t.ptr.bits = n := Nat.mod_eq_of_lt (by omega)
      rw [Prog.bind_eq, Prog.exec_bind, exec_readBytes]
      simp only [hnat, hmod]
      by_cases hle : n ≤ body.length
      · rw [dif_pos hle, Prog.next_ok, toList_takeVec, hnat]
        have : (body.take n).length = n := by rw [List.length_take]; omega
        cases fromUtf8 (body.take n) with
        | none => rfl
        | some s => simp only [this, if_true]; rfl
      · rw [dif_neg hle]
        have : (body.take n).length ≠ n := by rw [List.length_take]; omega
        cases fromUtf8 (body.take n) with
        | none => rfl
        | some s => simp only [if_neg this]; rfl
    · simp only [Prog.exec, hnat, hus]
      by_cases hle : n ≤ body.length
      · rw [if_pos hle]
        cases fromUtf8 (body.take n) with
        | none => rfl
        | some s =>
          simp only
          by_cases hx : (body.take n).length = n % 2 ^ t.ptr.bits
          · rw [if_pos hx, if_neg (by simpa using hx)]; rfl
          · rw [if_neg hx, if_pos hx]; rfl
      · rw [if_neg hle, List.take_of_length_le (by omega), List.drop_of_length_le (by omega)]
        cases fromUtf8 body with
        | none => rfl
        | some s =>
          simp only
          by_cases hx : body.length = n % 2 ^ t.ptr.bits
          · rw [if_pos hx, if_neg (by simpa using hx)]; rfl
          · rw [if_neg hx, if_pos hx]; rfl

/-- The loop of `deserialize_byte_buf` when the announced length does not fit. -/
theorem exec_byteBufLoop_wide (t : Target) (fin : Ending) (len lim fuel : Nat)
    (result bs : List UInt8) (hf : lim - result.length < fuel) (hw : lim + 4096 ≤ len)
    (hr : result.length % 4096 = 0) (hle : result.length ≤ (lim + 4095) / 4096 * 4096) :
    Prog.exec t fin (byteBufLoop len lim fuel result result.length) bs =
      if (lim + 4095) / 4096 * 4096 - result.length ≤ bs.length then
        .ok (result ++ bs.take ((lim + 4095) / 4096 * 4096 - result.length),
          bs.drop ((lim + 4095) / 4096 * 4096 - result.length))
      else .err .read := by
  generalize hup : (lim + 4095) / 4096 * 4096 = up at hle ⊢
  have hup1 : lim ≤ up := by omega
  have hup2 : up < lim + 4096 := by omega
  have hup3 : up % 4096 = 0 := by omega
  clear hup
  induction fuel generalizing result bs with
  | zero =>
    omega
  | succ fuel ih =>
    rw [byteBufLoop]
    by_cases hlt : result.length < lim
    · have hmin : min 4096 (len - result.length) = 4096 := by omega
      rw [if_pos hlt, Prog.bind_eq, Prog.exec_bind, exec_readBytes]
      simp only [hmin]
      by_cases hm : 4096 ≤ bs.length
      · rw [dif_pos hm, Prog.next_ok]
        have hl : (result ++ bs.take 4096).length = result.length + 4096 := by
          rw [List.length_append, List.length_take]; omega
        have hstep : up - result.length = 4096 + (up - (result.length + 4096)) := by omega
        have := ih (result ++ bs.take 4096) (bs.drop 4096) (by omega) (by omega) (by omega)
        rw [hl] at this
        rw [toList_takeVec, hmin, this]
        simp only [List.length_drop]
        by_cases hle' : up - result.length ≤ bs.length
        · rw [if_pos (by omega), if_pos hle', List.append_assoc]
          have htake := List.take_add (l := bs) (i := 4096) (j := up - (result.length + 4096))
          have hdrop : (bs.drop 4096).drop (up - (result.length + 4096)) =
              bs.drop (up - result.length) := by rw [List.drop_drop, ← hstep]
          rw [← hstep] at htake
          rw [hdrop, htake]
        · rw [if_neg (by omega), if_neg hle']
      · rw [dif_neg hm, if_neg (by omega)]
        rfl
    · have h0 : up - result.length = 0 := by omega
      rw [if_neg hlt, h0]
      simp [Prog.exec]

/-- `deserialize_byte_buf` on every target. -/
theorem exec_deByteBuf_any (t : Target) (hm : 4096 ≤ t.memLimit) (fin : Ending) (bs : List UInt8) :
    Prog.exec t fin (deByteBuf t) bs = match varintDecode 64 bs with
      | none => .err .read
      | some (n, body) =>
        if bufferBytes t.ptr.bits n ≤ body.length then
          .ok (body.take (bufferBytes t.ptr.bits n), body.drop (bufferBytes t.ptr.bits n))
        else .err .read := by
  have hb : 2 ^ 32 ≤ 2 ^ t.ptr.bits := by cases t.ptr <;> decide
  rw [deByteBuf, Prog.bind_eq, Prog.exec_bind, exec_u64]
  cases hd : varintDecode 64 bs with
  | none => rfl
  | some vr =>
    obtain ⟨n, body⟩ := vr
    have hn := varintDecode_lt (by simp) hd
    have hnat : (UInt64.ofNat n).toNat = n := by rw [UInt64.toNat_ofNat', Nat.mod_eq_of_lt hn]
    have hus : t.asUsize (UInt64.ofNat n) = n % 2 ^ t.ptr.bits := by rw [Target.asUsize, hnat]
    simp only [ofDec, Prog.next_ok]
    split
    · rw [Prog.exec, allocate_ok hm (by omega), hus, hnat]
      simp only
      by_cases hfit : n < 2 ^ t.ptr.bits
      · have hbb : bufferBytes t.ptr.bits n = n := by rw [bufferBytes, if_pos hfit]
        rw [hbb, Nat.mod_eq_of_lt hfit]
        have := exec_byteBufLoop t fin n (n + 1) [] body (by simp) (by simp)
        simpa using this
      · have hbb : bufferBytes t.ptr.bits n = (n % 2 ^ t.ptr.bits + 4095) / 4096 * 4096 := by
          rw [bufferBytes, if_neg hfit]
        rw [hbb]
        have hmod : n % 2 ^ t.ptr.bits + 4096 ≤ n := by
          have h1 : n % 2 ^ t.ptr.bits < 2 ^ t.ptr.bits := Nat.mod_lt _ (by omega)
          have h3 := Nat.div_add_mod n (2 ^ t.ptr.bits)
          have h4 : 1 ≤ n / 2 ^ t.ptr.bits := (Nat.one_le_div_iff (by omega)).mpr (by omega)
          have h5 : 2 ^ t.ptr.bits * 1 ≤ 2 ^ t.ptr.bits * (n / 2 ^ t.ptr.bits) :=
            Nat.mul_le_mul_left _ h4
          omega
        have := exec_byteBufLoop_wide t fin n (n % 2 ^ t.ptr.bits) (n % 2 ^ t.ptr.bits + 1) [] body
          (by simp) hmod (by simp) (by simp)
        simpa using this
    · rename_i hle
      have hle' : n ≤ 4096 := by
        have : ¬ (4096 : UInt64).toNat < (UInt64.ofNat n).toNat := hle
        rw [hnat] at this
        exact Nat.not_lt.mp this
      have hbb : bufferBytes t.ptr.bits n = n := by rw [bufferBytes, if_pos (by omega)]
      rw [Prog.exec, hnat, allocate_ok hm hle', hbb]
      simp only
      rw [Prog.bind_eq, Prog.exec_bind, exec_readBytes]
      by_cases h : n ≤ body.length
      · rw [dif_pos h, if_pos h, Prog.next_ok, toList_takeVec]
        rfl
      · rw [dif_neg h, if_neg h]
        rfl

/-! ## Strictness without text -/

theorem strict_wrap {α β : Type} {p : Prog DeErr α} (hp : Prog.Strict orRead p) (f : α → β) :
    Prog.Strict orRead (p >>= fun a => pure (f a)) :=
  Prog.Strict.bind hp fun _ => trivial

theorem strict_times {α : Type} {p : Prog DeErr α} (hp : Prog.Strict orRead p) (n : Nat) :
    Prog.Strict orRead (times n p) := by
  induction n with
  | zero => trivial
  | succ n ih => exact Prog.Strict.bind hp fun _ => strict_wrap ih _

theorem strict_readBytes (n : Nat) : Prog.Strict orRead (readBytes n) :=
  ⟨fun _ => rfl, fun _ => trivial⟩

theorem strict_bool : Prog.Strict orRead deBool := by
  refine Prog.Strict.bind (strict_readBytes 1) fun b => ?_
  split <;> trivial

mutual
theorem strict_noText (t : Target) : (ty : Ty) → NoText ty → Prog.Strict orRead (de t ty)
  | .bool, _ => by rw [de]; exact strict_wrap strict_bool _
  | .i8, _ => by rw [de]; exact strict_wrap (strict_wrap (strict_readBytes 1) _) _
  | .i16, _ => by rw [de]; exact strict_wrap (strict_wrap (strict_u16.mapErr orRead) _) _
  | .i32, _ => by rw [de]; exact strict_wrap (strict_wrap (strict_u32.mapErr orRead) _) _
  | .i64, _ => by rw [de]; exact strict_wrap (strict_wrap (strict_u64.mapErr orRead) _) _
  | .i128, _ => by rw [de]; trivial
  | .u8, _ => by rw [de]; exact strict_wrap (strict_wrap (strict_readBytes 1) _) _
  | .u16, _ => by rw [de]; exact strict_wrap (strict_u16.mapErr orRead) _
  | .u32, _ => by rw [de]; exact strict_wrap (strict_u32.mapErr orRead) _
  | .u64, _ => by rw [de]; exact strict_wrap (strict_u64.mapErr orRead) _
  | .u128, _ => by rw [de]; trivial
  | .f32, _ => by rw [de]; exact strict_wrap (strict_wrap (strict_readBytes 4) _) _
  | .f64, _ => by rw [de]; exact strict_wrap (strict_wrap (strict_readBytes 8) _) _
  | .byteBuf, _ => by rw [de]; exact strict_wrap (strict_byteBuf t) _
  | .any, _ => by rw [de]; trivial
  | .str, _ => by rw [de]; trivial
  | .bytes, _ => by rw [de]; trivial
  | .ignoredAny, _ => by rw [de]; trivial
  | .option ty, h => by
    rw [de]
    refine Prog.Strict.bind strict_bool fun b => ?_
    split
    · exact strict_wrap (strict_noText t ty h) _
    · trivial
  | .unit, _ => by rw [de]; trivial
  | .unitStruct _, _ => by rw [de]; trivial
  | .newtypeStruct _ ty, h => by rw [de]; exact strict_wrap (strict_noText t ty h) _
  | .seq ty, h => by
    rw [de]
    exact Prog.Strict.bind (strict_u64.mapErr orRead) fun _ =>
      strict_wrap (strict_times (strict_noText t ty h) _) _
  | .tuple ts, h => by rw [de]; exact strict_wrap (strict_allNoText t ts h) _
  | .tupleStruct _ ts, h => by rw [de]; exact strict_wrap (strict_allNoText t ts h) _
  | .map kt vt, h => by
    rw [de]
    exact Prog.Strict.bind (strict_u64.mapErr orRead) fun _ =>
      strict_wrap (strict_times (Prog.Strict.bind (strict_noText t kt h.1) fun _ =>
        strict_wrap (strict_noText t vt h.2) _) _) _
  | .struct _ fs, h => by rw [de]; exact strict_wrap (strict_fieldsNoText t fs h) _
  | .enum name vs, h => by
    rw [de]
    exact Prog.Strict.bind (strict_u16.mapErr orRead) fun i => strict_variantsNoText t name i _ vs h
theorem strict_allNoText (t : Target) : (ts : List Ty) → AllNoText ts →
    Prog.Strict orRead (deAll t ts)
  | [], _ => by rw [deAll]; trivial
  | ty :: ts, h => by
    rw [deAll]
    exact Prog.Strict.bind (strict_noText t ty h.1) fun _ => strict_wrap (strict_allNoText t ts h.2) _
theorem strict_fieldsNoText (t : Target) : (fs : List (String × Ty)) → FieldsNoText fs →
    Prog.Strict orRead (deFields t fs)
  | [], _ => by rw [deFields]; trivial
  | (_, ty) :: fs, h => by
    rw [deFields]
    exact Prog.Strict.bind (strict_noText t ty h.1) fun _ =>
      strict_wrap (strict_fieldsNoText t fs h.2) _
theorem strict_variantsNoText (t : Target) (name : String) (i : UInt16) : (j : Nat) →
    (vs : List (String × VTy)) → VariantsNoText vs → Prog.Strict orRead (deVariant t name i j vs)
  | _, [], _ => by rw [deVariant]; trivial
  | j + 1, _ :: vs, h => by rw [deVariant]; exact strict_variantsNoText t name i j vs h.2
  | 0, (vn, vt) :: _, h => by rw [deVariant]; exact strict_payloadNoText t name _ vn vt h.1
theorem strict_payloadNoText (t : Target) (name : String) (i : UInt32) (vn : String) :
    (vt : VTy) → PayloadNoText vt → Prog.Strict orRead (dePayload t name i vn vt)
  | .unit, _ => by rw [dePayload]; trivial
  | .newtype ty, h => by rw [dePayload]; exact strict_wrap (strict_noText t ty h) _
  | .tuple ts, h => by rw [dePayload]; exact strict_wrap (strict_allNoText t ts h) _
  | .struct fs, h => by rw [dePayload]; exact strict_wrap (strict_fieldsNoText t fs h) _
end

end De
end Dlhn
