import Verif.Proof.NoText
import Verif.Spec.Lenient
import Verif.Spec.Bounds
/-! # Lemmas about types that can notice bad data -/
namespace Dlhn.De
open Spec

/-- Data can only be missing: every input is read, or can be completed. -/
def Completable (t : Target) {α : Type} (p : Prog DeErr α) : Prop :=
  ∀ bs, (∃ a r, Prog.exec t .eof p bs = .ok (a, r)) ∨
    (Prog.exec t .eof p bs = .err .read ∧
      ∃ more a, Prog.exec t .eof p (bs ++ more) = .ok (a, []))

/-- Some data are refused whatever follows. -/
def Rejects (t : Target) {α : Type} (p : Prog DeErr α) : Prop :=
  ∃ bs, ∀ more, ∃ e, Prog.exec t .eof p (bs ++ more) = .err e

variable {t : Target} {α β : Type}

/-- Locality. -/
theorem exec_more {p : Prog DeErr α} (hp : Prog.Strict orRead p) {bs r : List UInt8} {a : α}
    (h : Prog.exec t .eof p bs = .ok (a, r)) (more : List UInt8) :
    Prog.exec t .eof p (bs ++ more) = .ok (a, r ++ more) := by
  obtain ⟨used, rfl, hs, -⟩ := Prog.exec_split t .eof hp h
  rw [List.append_assoc]
  exact hs .eof _

theorem exec_nil_rest {p : Prog DeErr α} (hp : Prog.Strict orRead p) {r : List UInt8} {a : α}
    (h : Prog.exec t .eof p [] = .ok (a, r)) : r = [] := by
  obtain ⟨used, hb, -⟩ := Prog.exec_split t .eof hp h
  exact (List.append_eq_nil_iff.mp hb.symm).2

theorem Completable.bind {p : Prog DeErr α} {f : α → Prog DeErr β} (hs : Prog.Strict orRead p)
    (hfs : ∀ a, Prog.Strict orRead (f a)) (hp : Completable t p) (hf : ∀ a, Completable t (f a)) :
    Completable t (p >>= f) := by
  intro bs
  simp only [Prog.bind_eq, Prog.exec_bind]
  rcases hp bs with ⟨a, r, h⟩ | ⟨h, more, a, hm⟩
  · rw [h, Prog.next_ok]
    rcases hf a r with ⟨b, r', h'⟩ | ⟨h', more, b, hm⟩
    · exact .inl ⟨b, r', h'⟩
    · refine .inr ⟨h', more, b, ?_⟩
      rw [exec_more hs h, Prog.next_ok, hm]
  · rw [h]
    refine .inr ⟨rfl, ?_⟩
    rcases hf a [] with ⟨b, r', h'⟩ | ⟨h', more', b, hm'⟩
    · have := exec_nil_rest (hfs a) h'
      subst this
      exact ⟨more, b, by rw [hm, Prog.next_ok, h']⟩
    · refine ⟨more ++ more', b, ?_⟩
      rw [← List.append_assoc, exec_more hs hm, Prog.next_ok, hm']

theorem Completable.pure (a : α) : Completable t (pure a : Prog DeErr α) :=
  fun bs => .inl ⟨a, bs, rfl⟩

theorem Completable.wrap {p : Prog DeErr α} (hs : Prog.Strict orRead p) (hp : Completable t p)
    (f : α → β) : Completable t (p >>= fun a => Pure.pure (f a)) :=
  Completable.bind hs (fun _ => trivial) hp fun _ => Completable.pure _

theorem Completable.times {p : Prog DeErr α} (hs : Prog.Strict orRead p) (hp : Completable t p)
    (n : Nat) : Completable t (times n p) := by
  induction n with
  | zero => exact Completable.pure _
  | succ n ih =>
    exact Completable.bind hs (fun _ => strict_wrap (strict_times hs n) _) hp fun _ =>
      Completable.wrap (strict_times hs n) ih _

theorem completable_readBytes (n : Nat) : Completable t (readBytes n) := by
  intro bs
  rw [exec_readBytes]
  by_cases h : n ≤ bs.length
  · rw [dif_pos h]; exact .inl ⟨_, _, rfl⟩
  · rw [dif_neg h]
    refine .inr ⟨rfl, List.replicate (n - bs.length) 0, ?_⟩
    have hl : (bs ++ List.replicate (n - bs.length) 0).length = n := by
      rw [List.length_append, List.length_replicate]; omega
    rw [exec_readBytes, dif_pos (by omega)]
    exact ⟨_, by rw [List.drop_of_length_le (by omega)]⟩

/-- A number that is cut short can be completed. -/
theorem varintDecode_complete (w : Nat) (bs : List UInt8) (h : varintDecode w bs = none) :
    ∃ more v, varintDecode w (bs ++ more) = some (v, []) := by
  have key : ∀ (b : UInt8) (bs : List UInt8), bs.length = extraBytes w b →
      ∃ v, varintDecode w (b :: bs) = some (v, []) := by
    intro b bs hl
    simp only [varintDecode]
    rw [if_neg (by omega)]
    split
    · exact ⟨_, by rw [List.drop_of_length_le (by omega)]⟩
    · exact ⟨_, by rw [List.drop_of_length_le (by omega)]⟩
  cases bs with
  | nil => exact ⟨[0], key 0 [] (by simp [extraBytes, show leadingOnes 0 = 0 by decide])⟩
  | cons b bs =>
    have h := (varintDecode_none_iff w b bs).mp h
    refine ⟨List.replicate (extraBytes w b - bs.length) 0, ?_⟩
    exact key b (bs ++ List.replicate (extraBytes w b - bs.length) 0)
      (by rw [List.length_append, List.length_replicate]; omega)

theorem completable_varint {p : Prog DeErr α} (w : Nat) (conv : Nat → α)
    (h : ∀ bs, Prog.exec t .eof p bs = ofDec conv (varintDecode w bs)) : Completable t p := by
  intro bs
  simp only [h]
  cases hd : varintDecode w bs with
  | some vr => exact .inl ⟨_, _, rfl⟩
  | none =>
    obtain ⟨more, v, hm⟩ := varintDecode_complete w bs hd
    exact .inr ⟨rfl, more, conv v, by rw [hm]; rfl⟩

theorem completable_u16 : Completable t (io PrefixVarint.decodeU16) :=
  completable_varint 16 _ (exec_u16 t .eof)
theorem completable_u32 : Completable t (io PrefixVarint.decodeU32) :=
  completable_varint 32 _ (exec_u32 t .eof)
theorem completable_u64 : Completable t (io PrefixVarint.decodeU64) :=
  completable_varint 64 _ (exec_u64 t .eof)

theorem completable_byteBuf (hm : 4096 ≤ t.memLimit) : Completable t (deByteBuf t) := by
  intro bs
  simp only [exec_deByteBuf_any t hm]
  have key : ∀ bs n body, varintDecode 64 bs = some (n, body) → ∀ more,
      varintDecode 64 (bs ++ more) = some (n, body ++ more) := by
    intro bs n body hd more
    have hx : Prog.exec t .eof (io PrefixVarint.decodeU64) bs = .ok (UInt64.ofNat n, body) := by
      rw [exec_u64, hd]; rfl
    have := exec_more (p := io PrefixVarint.decodeU64) (strict_u64.mapErr orRead) hx more
    rw [exec_u64] at this
    cases hd' : varintDecode 64 (bs ++ more) with
    | none => rw [hd'] at this; simp [ofDec] at this
    | some vr =>
      obtain ⟨n', body'⟩ := vr
      rw [hd'] at this
      simp only [ofDec, Outcome.ok.injEq, Prod.mk.injEq] at this
      have h1 := varintDecode_lt (by simp) hd
      have h2 := varintDecode_lt (by simp) hd'
      have h3 := congrArg UInt64.toNat this.1
      rw [UInt64.toNat_ofNat', UInt64.toNat_ofNat', Nat.mod_eq_of_lt h1, Nat.mod_eq_of_lt h2] at h3
      rw [h3, this.2]
  have fill : ∀ bs n body, varintDecode 64 bs = some (n, body) →
      body.length ≤ bufferBytes t.ptr.bits n →
      ∃ more a, (match varintDecode 64 (bs ++ more) with
        | none => Outcome.err DeErr.read
        | some (n, body) => if bufferBytes t.ptr.bits n ≤ body.length then
            .ok (body.take (bufferBytes t.ptr.bits n), body.drop (bufferBytes t.ptr.bits n))
          else .err .read) = .ok (a, []) := by
    intro bs n body hd hle
    have hl : (body ++ List.replicate (bufferBytes t.ptr.bits n - body.length) 0).length =
        bufferBytes t.ptr.bits n := by
      rw [List.length_append, List.length_replicate]; omega
    refine ⟨List.replicate (bufferBytes t.ptr.bits n - body.length) 0, ?_⟩
    simp only [key bs n body hd]
    rw [if_pos (by omega), List.drop_of_length_le (by omega)]
    exact ⟨_, rfl⟩
  cases hd : varintDecode 64 bs with
  | none =>
    refine .inr ⟨rfl, ?_⟩
    obtain ⟨more, v, hv⟩ := varintDecode_complete 64 bs hd
    obtain ⟨more', a, ha⟩ := fill _ v [] hv (Nat.zero_le _)
    exact ⟨more ++ more', a, by rw [← List.append_assoc]; exact ha⟩
  | some vr =>
    obtain ⟨n, body⟩ := vr
    simp only
    by_cases hle : bufferBytes t.ptr.bits n ≤ body.length
    · rw [if_pos hle]; exact .inl ⟨_, _, rfl⟩
    · rw [if_neg hle]
      exact .inr ⟨rfl, fill bs n body hd (by omega)⟩

mutual
theorem noText_of_lenient : (ty : Ty) → Lenient ty → NoText ty
  | .i8, _ | .i16, _ | .i32, _ | .i64, _ | .u8, _ | .u16, _ | .u32, _ | .u64, _ | .f32, _
  | .f64, _ | .byteBuf, _ | .unit, _ | .unitStruct _, _ => trivial
  | .bool, h | .i128, h | .u128, h | .char, h | .string, h | .any, h | .str, h | .bytes, h
  | .ignoredAny, h | .option _, h | .enum _ _, h => False.elim h
  | .newtypeStruct _ ty, h => noText_of_lenient ty h
  | .seq ty, h => noText_of_lenient ty h
  | .tuple ts, h => allNoText_of_lenient ts h
  | .tupleStruct _ ts, h => allNoText_of_lenient ts h
  | .map kt vt, h => ⟨noText_of_lenient kt h.1, noText_of_lenient vt h.2⟩
  | .struct _ fs, h => fieldsNoText_of_lenient fs h
theorem allNoText_of_lenient : (ts : List Ty) → AllLenient ts → AllNoText ts
  | [], _ => trivial
  | ty :: ts, h => ⟨noText_of_lenient ty h.1, allNoText_of_lenient ts h.2⟩
theorem fieldsNoText_of_lenient : (fs : List (String × Ty)) → FieldsLenient fs → FieldsNoText fs
  | [], _ => trivial
  | (_, ty) :: fs, h => ⟨noText_of_lenient ty h.1, fieldsNoText_of_lenient fs h.2⟩
end

theorem strict_lenient (t : Target) (ty : Ty) (h : Lenient ty) : Prog.Strict orRead (de t ty) :=
  strict_noText t ty (noText_of_lenient ty h)

mutual
theorem completable_de (hm : 4096 ≤ t.memLimit) : (ty : Ty) → Lenient ty → Completable t (de t ty)
  | .i8, _ => by
    rw [de]
    exact .wrap (strict_wrap (strict_readBytes 1) _) (.wrap (strict_readBytes 1)
      (completable_readBytes 1) _) _
  | .i16, _ => by
    rw [de]
    exact .wrap (strict_wrap (strict_u16.mapErr orRead) _) (.wrap (strict_u16.mapErr orRead)
      completable_u16 _) _
  | .i32, _ => by
    rw [de]
    exact .wrap (strict_wrap (strict_u32.mapErr orRead) _) (.wrap (strict_u32.mapErr orRead)
      completable_u32 _) _
  | .i64, _ => by
    rw [de]
    exact .wrap (strict_wrap (strict_u64.mapErr orRead) _) (.wrap (strict_u64.mapErr orRead)
      completable_u64 _) _
  | .u8, _ => by
    rw [de]
    exact .wrap (strict_wrap (strict_readBytes 1) _) (.wrap (strict_readBytes 1)
      (completable_readBytes 1) _) _
  | .u16, _ => by rw [de]; exact .wrap (strict_u16.mapErr orRead) completable_u16 _
  | .u32, _ => by rw [de]; exact .wrap (strict_u32.mapErr orRead) completable_u32 _
  | .u64, _ => by rw [de]; exact .wrap (strict_u64.mapErr orRead) completable_u64 _
  | .f32, _ => by
    rw [de]
    exact .wrap (strict_wrap (strict_readBytes 4) _) (.wrap (strict_readBytes 4)
      (completable_readBytes 4) _) _
  | .f64, _ => by
    rw [de]
    exact .wrap (strict_wrap (strict_readBytes 8) _) (.wrap (strict_readBytes 8)
      (completable_readBytes 8) _) _
  | .byteBuf, _ => by rw [de]; exact .wrap (strict_byteBuf t) (completable_byteBuf hm) _
  | .unit, _ => by rw [de]; exact .pure _
  | .unitStruct _, _ => by rw [de]; exact .pure _
  | .bool, h | .i128, h | .u128, h | .char, h | .string, h | .any, h | .str, h | .bytes, h
  | .ignoredAny, h | .option _, h | .enum _ _, h => False.elim h
  | .newtypeStruct _ ty, h => by
    rw [de]; exact .wrap (strict_lenient t ty h) (completable_de hm ty h) _
  | .seq ty, h => by
    rw [de]
    have hs := strict_lenient t ty h
    exact .bind (strict_u64.mapErr orRead) (fun _ => strict_wrap (strict_times hs _) _)
      completable_u64 fun _ => .wrap (strict_times hs _) (.times hs (completable_de hm ty h) _) _
  | .tuple ts, h => by
    rw [de]
    exact .wrap (strict_allNoText t ts (allNoText_of_lenient ts h)) (completable_deAll hm ts h) _
  | .tupleStruct _ ts, h => by
    rw [de]
    exact .wrap (strict_allNoText t ts (allNoText_of_lenient ts h)) (completable_deAll hm ts h) _
  | .map kt vt, h => by
    rw [de]
    have hk := strict_lenient t kt h.1
    have hv := strict_lenient t vt h.2
    have hs := Prog.Strict.bind hk fun k => strict_wrap hv fun v => (k, v)
    exact .bind (strict_u64.mapErr orRead) (fun _ => strict_wrap (strict_times hs _) _)
      completable_u64 fun _ => .wrap (strict_times hs _) (.times hs
        (.bind hk (fun _ => strict_wrap hv _) (completable_de hm kt h.1) fun _ =>
          .wrap hv (completable_de hm vt h.2) _) _) _
  | .struct _ fs, h => by
    rw [de]
    exact .wrap (strict_fieldsNoText t fs (fieldsNoText_of_lenient fs h))
      (completable_deFields hm fs h) _
theorem completable_deAll (hm : 4096 ≤ t.memLimit) : (ts : List Ty) → AllLenient ts →
    Completable t (deAll t ts)
  | [], _ => by rw [deAll]; exact .pure _
  | ty :: ts, h => by
    rw [deAll]
    have hs := strict_allNoText t ts (allNoText_of_lenient ts h.2)
    exact .bind (strict_lenient t ty h.1) (fun _ => strict_wrap hs _) (completable_de hm ty h.1)
      fun _ => .wrap hs (completable_deAll hm ts h.2) _
theorem completable_deFields (hm : 4096 ≤ t.memLimit) : (fs : List (String × Ty)) →
    FieldsLenient fs → Completable t (deFields t fs)
  | [], _ => by rw [deFields]; exact .pure _
  | (_, ty) :: fs, h => by
    rw [deFields]
    have hs := strict_fieldsNoText t fs (fieldsNoText_of_lenient fs h.2)
    exact .bind (strict_lenient t ty h.1) (fun _ => strict_wrap hs _) (completable_de hm ty h.1)
      fun _ => .wrap hs (completable_deFields hm fs h.2) _
end

/-! ## Inputs that are long enough -/

/-- Every input of `k` bytes is read, and at most `k` bytes of it are used. -/
def Enough (t : Target) {α : Type} (k : Nat) (p : Prog DeErr α) : Prop :=
  ∀ bs, k ≤ bs.length → ∃ a r, Prog.exec t .eof p bs = .ok (a, r) ∧ bs.length ≤ k + r.length

theorem Enough.bind {k l : Nat} {p : Prog DeErr α} {f : α → Prog DeErr β} (hp : Enough t k p)
    (hf : ∀ a, Enough t l (f a)) : Enough t (k + l) (p >>= f) := by
  intro bs hl
  obtain ⟨a, r, h, hr⟩ := hp bs (by omega)
  obtain ⟨b, r', h', hr'⟩ := hf a r (by omega)
  exact ⟨b, r', by rw [Prog.bind_eq, Prog.exec_bind, h, Prog.next_ok, h'], by omega⟩

theorem Enough.pure (a : α) : Enough t 0 (pure a : Prog DeErr α) :=
  fun bs _ => ⟨a, bs, rfl, by omega⟩

theorem Enough.wrap {k : Nat} {p : Prog DeErr α} (hp : Enough t k p) (f : α → β) :
    Enough t k (p >>= fun a => Pure.pure (f a)) :=
  Enough.bind (l := 0) hp fun _ => Enough.pure _

theorem Enough.times {p : Prog DeErr α} (hp : Enough t 0 p) (n : Nat) :
    Enough t 0 (De.times n p) := by
  induction n with
  | zero => exact Enough.pure _
  | succ n ih => exact Enough.bind (k := 0) (l := 0) hp fun _ => Enough.wrap ih _

theorem enough_readBytes (n : Nat) : Enough t n (readBytes n) := by
  intro bs h
  rw [exec_readBytes, dif_pos h]
  exact ⟨_, _, rfl, by rw [List.length_drop]; omega⟩

theorem enough_varint {p : Prog DeErr α} (w : Nat) (conv : Nat → α)
    (h : ∀ bs, Prog.exec t .eof p bs = ofDec conv (varintDecode w bs)) :
    Enough t (w / 8 + 1) p := by
  intro bs hl
  cases bs with
  | nil => simp at hl
  | cons b bs =>
    rw [h]
    have he : extraBytes w b ≤ w / 8 := Nat.min_le_right _ _
    rw [List.length_cons] at hl ⊢
    simp only [varintDecode]
    rw [if_neg (by omega)]
    split
    · exact ⟨_, _, rfl, by rw [List.length_drop]; omega⟩
    · exact ⟨_, _, rfl, by rw [List.length_drop]; omega⟩

theorem enough_u16 : Enough t 3 (io PrefixVarint.decodeU16) := enough_varint 16 _ (exec_u16 t .eof)
theorem enough_u32 : Enough t 5 (io PrefixVarint.decodeU32) := enough_varint 32 _ (exec_u32 t .eof)
theorem enough_u64 : Enough t 9 (io PrefixVarint.decodeU64) := enough_varint 64 _ (exec_u64 t .eof)

theorem addBound_some {a b : Option Nat} {m : Nat} (h : addBound a b = some m) :
    ∃ x y, a = some x ∧ b = some y ∧ m = x + y := by
  cases a <;> cases b <;> simp [addBound] at h ⊢
  exact h.symm

theorem maxCount_64 (n : Nat) : maxCount ⟨.w64, n⟩ = 9 := by
  simp [maxCount, PtrWidth.bits, varint, groups, leBytes]

mutual
theorem enough_de : (ty : Ty) → Lenient ty → (m : Nat) →
    maxSize ⟨.w64, 0⟩ ty = some m → Enough t m (de t ty)
  | .i8, _, m, h => by
    cases h; rw [de]; exact ((enough_readBytes 1).wrap _).wrap _
  | .u8, _, m, h => by
    cases h; rw [de]; exact ((enough_readBytes 1).wrap _).wrap _
  | .i16, _, m, h => by cases h; rw [de]; exact (enough_u16.wrap _).wrap _
  | .i32, _, m, h => by cases h; rw [de]; exact (enough_u32.wrap _).wrap _
  | .i64, _, m, h => by cases h; rw [de]; exact (enough_u64.wrap _).wrap _
  | .u16, _, m, h => by cases h; rw [de]; exact enough_u16.wrap _
  | .u32, _, m, h => by cases h; rw [de]; exact enough_u32.wrap _
  | .u64, _, m, h => by cases h; rw [de]; exact enough_u64.wrap _
  | .f32, _, m, h => by cases h; rw [de]; exact ((enough_readBytes 4).wrap _).wrap _
  | .f64, _, m, h => by cases h; rw [de]; exact ((enough_readBytes 8).wrap _).wrap _
  | .unit, _, m, h => by cases h; rw [de]; exact .pure _
  | .unitStruct _, _, m, h => by cases h; rw [de]; exact .pure _
  | .byteBuf, _, m, h => by simp [maxSize] at h
  | .map _ _, _, m, h => by simp [maxSize] at h
  | .bool, h, _, _ | .i128, h, _, _ | .u128, h, _, _ | .char, h, _, _ | .string, h, _, _
  | .any, h, _, _ | .str, h, _, _ | .bytes, h, _, _ | .ignoredAny, h, _, _ | .option _, h, _, _
  | .enum _ _, h, _, _ => False.elim h
  | .newtypeStruct _ ty, hl, m, h => by
    rw [maxSize] at h
    rw [de]; exact (enough_de ty hl m h).wrap _
  | .seq ty, hl, m, h => by
    rw [maxSize] at h
    split at h
    · rename_i h0
      rw [maxCount_64] at h
      cases h
      rw [de]
      exact Enough.bind (l := 0) enough_u64 fun _ => ((enough_de ty hl 0 h0).times _).wrap _
    · cases h
  | .tuple ts, hl, m, h => by
    rw [maxSize] at h
    rw [de]; exact (enough_deAll ts hl m h).wrap _
  | .tupleStruct _ ts, hl, m, h => by
    rw [maxSize] at h
    rw [de]; exact (enough_deAll ts hl m h).wrap _
  | .struct _ fs, hl, m, h => by
    rw [maxSize] at h
    rw [de]; exact (enough_deFields fs hl m h).wrap _
theorem enough_deAll : (ts : List Ty) → AllLenient ts → (m : Nat) →
    maxSizeAll ⟨.w64, 0⟩ ts = some m → Enough t m (deAll t ts)
  | [], _, m, h => by cases h; rw [deAll]; exact .pure _
  | ty :: ts, hl, m, h => by
    rw [maxSizeAll] at h
    obtain ⟨x, y, hx, hy, rfl⟩ := addBound_some h
    rw [deAll]
    exact Enough.bind (enough_de ty hl.1 x hx) fun _ => (enough_deAll ts hl.2 y hy).wrap _
theorem enough_deFields : (fs : List (String × Ty)) → FieldsLenient fs → (m : Nat) →
    maxSizeFields ⟨.w64, 0⟩ fs = some m → Enough t m (deFields t fs)
  | [], _, m, h => by cases h; rw [deFields]; exact .pure _
  | (_, ty) :: fs, hl, m, h => by
    rw [maxSizeFields] at h
    obtain ⟨x, y, hx, hy, rfl⟩ := addBound_some h
    rw [deFields]
    exact Enough.bind (enough_de ty hl.1 x hx) fun _ => (enough_deFields fs hl.2 y hy).wrap _
end

/-! ## Data that are refused -/

theorem Rejects.left {p : Prog DeErr α} (hp : Rejects t p) (f : α → Prog DeErr β) :
    Rejects t (p >>= f) := by
  obtain ⟨bs, h⟩ := hp
  refine ⟨bs, fun more => ?_⟩
  obtain ⟨e, he⟩ := h more
  exact ⟨e, by rw [Prog.bind_eq, Prog.exec_bind, he]; rfl⟩

theorem Rejects.right {p : Prog DeErr α} (hs : Prog.Strict orRead p) (hp : Completable t p)
    {f : α → Prog DeErr β} (hf : ∀ a, Rejects t (f a)) : Rejects t (p >>= f) := by
  obtain ⟨bs, a, h⟩ : ∃ bs a, Prog.exec t .eof p bs = .ok (a, []) := by
    rcases hp [] with ⟨a, r, h⟩ | ⟨-, more, a, h⟩
    · exact ⟨[], a, by rw [h, exec_nil_rest hs h]⟩
    · exact ⟨_, a, h⟩
  obtain ⟨bs', h'⟩ := hf a
  refine ⟨bs ++ bs', fun more => ?_⟩
  obtain ⟨e, he⟩ := h' more
  exact ⟨e, by rw [List.append_assoc, Prog.bind_eq, Prog.exec_bind, exec_more hs h, Prog.next_ok,
    List.nil_append, he]⟩

/-- A count of one, then what the element refuses. -/
theorem Rejects.counted {p : Prog DeErr α} (hp : Rejects t p) (f : List α → β) :
    Rejects t (do
      let count ← io PrefixVarint.decodeU64
      let vs ← times (t.asUsize count) p
      Pure.pure (f vs)) := by
  obtain ⟨bs, h⟩ := hp
  refine ⟨varint 64 1 ++ bs, fun more => ?_⟩
  obtain ⟨e, he⟩ := h more
  refine ⟨e, ?_⟩
  have h1 : t.asUsize (UInt64.ofNat 1) = 1 :=
    asUsize_ofNat (Nat.lt_of_lt_of_le (by decide) (bits_ge t))
  rw [List.append_assoc, Prog.bind_eq, Prog.exec_bind, exec_u64_varint t _ 1 (by decide),
    Prog.next_ok, h1, times, Prog.bind_eq, Prog.exec_bind, Prog.bind_eq, Prog.exec_bind, he]
  rfl

theorem rejects_bool : Rejects t deBool :=
  ⟨[2], fun more => ⟨.read, by rw [deBool, Prog.bind_eq, Prog.exec_bind, exec_readBytes]; rfl⟩⟩

theorem rejects_string : Rejects t (deString t) := by
  refine ⟨[1, 0xff], fun more => ⟨.read, ?_⟩⟩
  have hd : varintDecode 64 ([1, 0xff] ++ more) = some (1, 0xff :: more) := by
    rw [show [1, 0xff] ++ more = varint 64 1 ++ 0xff :: more by
      rw [show varint 64 1 = [1] by decide +kernel]; rfl]
    exact varintDecode_varint 64 1 (by decide) (by decide) _
  rw [exec_deString_any, hd]
  have : fromUtf8 [0xff] = none := by decide +kernel
  simp [this]

theorem rejects_char : Rejects t (deChar t) := rejects_string.left _

theorem deVariant_past (t : Target) (name : String) (i : UInt16) (n : Nat)
    (vs : List (String × VTy)) (h : vs.length ≤ n) :
    deVariant t name i n vs = .done (.err (unknownVariant i.toNat (i.toNat - (n - vs.length)))) := by
  induction vs generalizing n with
  | nil => rw [deVariant]; rfl
  | cons v vs ih =>
    cases n with
    | zero => simp at h
    | succ n => rw [deVariant, ih n (by simpa using h), List.length_cons, Nat.add_sub_add_right]

mutual
theorem rejects_de (hm : 4096 ≤ t.memLimit) : (ty : Ty) → Decodable ty → SmallEnums ty →
    ¬ Lenient ty → Rejects t (de t ty)
  | .i8, _, _, h | .i16, _, _, h | .i32, _, _, h | .i64, _, _, h | .u8, _, _, h | .u16, _, _, h
  | .u32, _, _, h | .u64, _, _, h | .f32, _, _, h | .f64, _, _, h | .byteBuf, _, _, h
  | .unit, _, _, h | .unitStruct _, _, _, h => absurd trivial h
  | .any, hd, _, _ | .str, hd, _, _ | .bytes, hd, _, _ | .ignoredAny, hd, _, _ => False.elim hd
  | .bool, _, _, _ => by rw [de]; exact rejects_bool.left _
  | .i128, _, _, _ => by rw [de]; exact ⟨[], fun _ => ⟨_, rfl⟩⟩
  | .u128, _, _, _ => by rw [de]; exact ⟨[], fun _ => ⟨_, rfl⟩⟩
  | .char, _, _, _ => by rw [de]; exact rejects_char.left _
  | .string, _, _, _ => by rw [de]; exact rejects_string.left _
  | .option _, _, _, _ => by rw [de]; exact rejects_bool.left _
  | .enum name vs, _, hs, _ => by
    rw [de]
    refine ⟨varint 16 65535, fun more => ⟨unknownVariant 65535 (65535 - (65535 - vs.length)), ?_⟩⟩
    have hs : vs.length < 65536 := hs
    have hi : (UInt16.ofNat 65535).toNat = 65535 := by decide
    rw [Prog.bind_eq, Prog.exec_bind, exec_u16_varint t _ 65535 (by decide), Prog.next_ok,
      deVariant_past t name _ _ vs (by rw [hi]; omega)]
    rfl
  | .newtypeStruct _ ty, hd, hs, h => by rw [de]; exact (rejects_de hm ty hd hs h).left _
  | .seq ty, hd, hs, h => by rw [de]; exact (rejects_de hm ty hd hs h).counted _
  | .tuple ts, hd, hs, h => by rw [de]; exact (rejects_deAll hm ts hd hs h).left _
  | .tupleStruct _ ts, hd, hs, h => by rw [de]; exact (rejects_deAll hm ts hd hs h).left _
  | .map kt vt, hd, hs, h => by
    rw [de]
    refine Rejects.counted ?_ _
    by_cases hk : Lenient kt
    · exact Rejects.right (strict_lenient t kt hk) (completable_de hm kt hk) fun _ =>
        (rejects_de hm vt hd.2 hs.2 fun hv => h ⟨hk, hv⟩).left _
    · exact (rejects_de hm kt hd.1 hs.1 hk).left _
  | .struct _ fs, hd, hs, h => by rw [de]; exact (rejects_deFields hm fs hd hs h).left _
theorem rejects_deAll (hm : 4096 ≤ t.memLimit) : (ts : List Ty) → AllDecodable ts →
    AllSmallEnums ts → ¬ AllLenient ts → Rejects t (deAll t ts)
  | [], _, _, h => absurd trivial h
  | ty :: ts, hd, hs, h => by
    rw [deAll]
    by_cases hk : Lenient ty
    · exact Rejects.right (strict_lenient t ty hk) (completable_de hm ty hk) fun _ =>
        (rejects_deAll hm ts hd.2 hs.2 fun hv => h ⟨hk, hv⟩).left _
    · exact (rejects_de hm ty hd.1 hs.1 hk).left _
theorem rejects_deFields (hm : 4096 ≤ t.memLimit) : (fs : List (String × Ty)) →
    FieldsDecodable fs → FieldsSmallEnums fs → ¬ FieldsLenient fs → Rejects t (deFields t fs)
  | [], _, _, h => absurd trivial h
  | (_, ty) :: fs, hd, hs, h => by
    rw [deFields]
    by_cases hk : Lenient ty
    · exact Rejects.right (strict_lenient t ty hk) (completable_de hm ty hk) fun _ =>
        (rejects_deFields hm fs hd.2 hs.2 fun hv => h ⟨hk, hv⟩).left _
    · exact (rejects_de hm ty hd.1 hs.1 hk).left _
end

end Dlhn.De
