import Verif.Spec.GrammarAny
import Verif.Proof.Grammar
import Verif.Proof.NoText
/-! # The decoder accepts exactly the grammar, on every target -/
namespace Dlhn
namespace De

open Spec PrefixVarint
open Prog (exec)

/-- `p` accepts exactly the inputs that `R` says, with the values it says. -/
def ParsesIn {α : Type} (t : Target) (p : Prog DeErr α)
    (R : α → List UInt8 → List UInt8 → Prop) : Prop :=
  ∀ bs v rest, exec t .eof p bs = .ok (v, rest) ↔ ∃ used, bs = used ++ rest ∧ R v used rest

theorem Parses.inn {α : Type} {t : Target} {p : Prog DeErr α} {R : α → List UInt8 → Prop}
    (h : Parses t p R) : ParsesIn t p fun v u _ => R v u := fun bs v rest => h .eof bs v rest

namespace ParsesIn

variable {α β : Type} {t : Target}

theorem congr {p : Prog DeErr α} {R S : α → List UInt8 → List UInt8 → Prop} (h : ParsesIn t p R)
    (hs : ∀ v u r, S v u r ↔ R v u r) : ParsesIn t p S := by
  intro bs v rest
  rw [h bs v rest]
  simp only [hs]

theorem bind {p : Prog DeErr α} {k : α → Prog DeErr β} {R : α → List UInt8 → List UInt8 → Prop}
    {S : α → β → List UInt8 → List UInt8 → Prop} (hp : ParsesIn t p R)
    (hk : ∀ a, ParsesIn t (k a) (S a)) :
    ParsesIn t (p >>= k) fun w u r => ∃ a x y, u = x ++ y ∧ R a x (y ++ r) ∧ S a w y r := by
  intro bs w rest
  rw [Prog.bind_eq, Prog.exec_bind]
  constructor
  · intro h
    cases hx : exec t .eof p bs with
    | ok ar =>
      obtain ⟨a, r⟩ := ar
      rw [hx, Prog.next_ok] at h
      obtain ⟨x, rfl, h1⟩ := (hp bs a r).mp hx
      obtain ⟨y, rfl, h2⟩ := (hk a r w rest).mp h
      exact ⟨x ++ y, by simp, a, x, y, rfl, h1, h2⟩
    | err e => rw [hx] at h; cases h
    | panic q => rw [hx] at h; cases h
  · rintro ⟨u, rfl, a, x, y, rfl, h1, h2⟩
    rw [(hp _ a (y ++ rest)).mpr ⟨x, by simp, h1⟩, Prog.next_ok]
    exact (hk a _ w rest).mpr ⟨y, rfl, h2⟩

theorem wrap {p : Prog DeErr α} {R : α → List UInt8 → List UInt8 → Prop} (hp : ParsesIn t p R)
    (f : α → β) :
    ParsesIn t (p >>= fun a => pure (f a)) fun w u r => ∃ a, w = f a ∧ R a u r := by
  refine (hp.bind fun a => (Parses.ret (f a)).inn).congr fun w u r => ?_
  constructor
  · rintro ⟨a, rfl, h⟩; exact ⟨a, u, [], by simp, h, rfl, rfl⟩
  · rintro ⟨a, x, y, rfl, h, rfl, rfl⟩; exact ⟨a, rfl, by simpa using h⟩

theorem string : ParsesIn t (deString t) fun s u r => TextIn t.ptr.bits (utf8 s) u r := by
  intro bs v rest
  rw [exec_deString_any]
  constructor
  · intro hx
    cases hd : varintDecode 64 bs with
    | none => rw [hd] at hx; cases hx
    | some nb =>
      obtain ⟨n, body⟩ := nb
      rw [hd] at hx
      simp only at hx
      cases hs : fromUtf8 (body.take n) with
      | none => rw [hs] at hx; cases hx
      | some s =>
        rw [hs] at hx
        simp only at hx
        split at hx
        · rename_i hl
          simp only [Outcome.ok.injEq, Prod.mk.injEq] at hx
          obtain ⟨rfl, rfl⟩ := hx
          obtain ⟨l, rfl, hn⟩ := (number_decode 64 (by simp) _ _ _).mp hd
          have hb := utf8_of_fromUtf8 hs
          refine ⟨l ++ body.take n, by simp, n, l, hn, by rw [hb], by rw [hb]; exact hl, fun hge => ?_⟩
          have hmod : n % 2 ^ t.ptr.bits < 2 ^ t.ptr.bits := Nat.mod_lt _ (Nat.two_pow_pos _)
          rw [List.length_take] at hl
          exact List.drop_eq_nil_of_le (by omega)
        · cases hx
  · rintro ⟨u, rfl, n, l, hn, rfl, hl, hr⟩
    have hd := (number_decode 64 (by simp) n (l ++ (utf8 v ++ rest)) (utf8 v ++ rest)).mpr ⟨l, rfl, hn⟩
    rw [List.append_assoc, hd]
    simp only
    have htake : (utf8 v ++ rest).take n = utf8 v ∧ (utf8 v ++ rest).drop n = rest := by
      by_cases hge : 2 ^ t.ptr.bits ≤ n
      · have := hr hge
        subst this
        have hmod : n % 2 ^ t.ptr.bits < 2 ^ t.ptr.bits := Nat.mod_lt _ (Nat.two_pow_pos _)
        rw [List.append_nil]
        exact ⟨List.take_of_length_le (by omega), List.drop_eq_nil_of_le (by omega)⟩
      · rw [Nat.mod_eq_of_lt (by omega)] at hl
        rw [← hl]
        simp
    rw [htake.1, htake.2, fromUtf8_utf8]
    simp only
    rw [if_pos hl]

theorem byteBuf (hm : 4096 ≤ t.memLimit) :
    ParsesIn t (deByteBuf t) fun b u _ => BytesIn t.ptr.bits b u := by
  intro bs v rest
  rw [exec_deByteBuf_any t hm]
  constructor
  · intro hx
    cases hd : varintDecode 64 bs with
    | none => rw [hd] at hx; cases hx
    | some nb =>
      obtain ⟨n, body⟩ := nb
      rw [hd] at hx
      simp only at hx
      split at hx
      · rename_i hle
        simp only [Outcome.ok.injEq, Prod.mk.injEq] at hx
        obtain ⟨rfl, rfl⟩ := hx
        obtain ⟨l, rfl, hn⟩ := (number_decode 64 (by simp) _ _ _).mp hd
        exact ⟨l ++ body.take _, by simp, n, l, hn, rfl, by rw [List.length_take]; omega⟩
      · cases hx
  · rintro ⟨u, rfl, n, l, hn, rfl, hl⟩
    have hd := (number_decode 64 (by simp) n (l ++ (v ++ rest)) (v ++ rest)).mpr ⟨l, rfl, hn⟩
    rw [List.append_assoc, hd]
    simp only
    rw [← hl]
    simp

theorem times {p : Prog DeErr α} {R : α → List UInt8 → List UInt8 → Prop} (hp : ParsesIn t p R)
    (n : Nat) : ParsesIn t (times n p) fun vs u r => vs.length = n ∧ JoinedIn R vs u r := by
  induction n with
  | zero =>
    refine (Parses.ret []).inn.congr fun vs u r => ?_
    cases vs <;> simp [JoinedIn]
  | succ n ih =>
    refine (hp.bind fun a => ih.wrap (a :: ·)).congr fun vs u r => ?_
    constructor
    · rintro ⟨h1, h2⟩
      cases vs with
      | nil => simp at h1
      | cons a as =>
        obtain ⟨x, y, rfl, h3, h4⟩ := h2
        exact ⟨a, x, y, rfl, h3, as, rfl, by simpa using h1, h4⟩
    · rintro ⟨a, x, y, rfl, h3, as, rfl, h1, h4⟩
      exact ⟨by simp [h1], x, y, rfl, h3, h4⟩

theorem char : ParsesIn t (deChar t) fun c u r =>
    ∃ cs, TextIn t.ptr.bits (utf8 (String.ofList (c :: cs))) u r := by
  refine (string.bind (S := fun s c u _ => u = [] ∧ ∃ cs, s.toList = c :: cs) fun s => ?_).congr
    fun c u r => ⟨?_, ?_⟩
  · cases hs : s.toList with
    | nil =>
      refine (Parses.never ?_).inn.congr fun v u r => by simp
      intro fin bs v rest h
      cases h
    | cons c cs =>
      refine (Parses.ret c).inn.congr fun v u r => ?_
      simp [and_comm, eq_comm]
  · rintro ⟨cs, h⟩
    exact ⟨_, u, [], by simp, h, rfl, cs, by simp⟩
  · rintro ⟨s, x, y, rfl, h, rfl, cs, hs⟩
    refine ⟨cs, ?_⟩
    rw [← hs, String.ofList_toList]
    simpa using h

theorem option {p : Prog DeErr Val} {R : Val → List UInt8 → List UInt8 → Prop}
    (hp : ParsesIn t p R) :
    ParsesIn t (do if ← deBool then pure (Val.some (← p)) else pure Val.none) fun v bs r =>
      (v = .none ∧ bs = [0]) ∨ ∃ w u, v = .some w ∧ bs = 1 :: u ∧ R w u r := by
  refine (Parses.bool.inn.bind
    (S := fun b v u r => if b then ∃ w, v = .some w ∧ R w u r else v = .none ∧ u = [])
    fun b => ?_).congr fun v u r => ⟨?_, ?_⟩
  · cases b
    · exact (Parses.ret Val.none).inn.congr fun v u r => by simp
    · exact (hp.wrap Val.some).congr fun v u r => by simp
  · rintro (⟨rfl, rfl⟩ | ⟨w, x, rfl, rfl, h⟩)
    · exact ⟨false, [0], [], rfl, .inl ⟨rfl, rfl⟩, by simp⟩
    · exact ⟨true, [1], x, rfl, .inr ⟨rfl, rfl⟩, by simpa using h⟩
  · rintro ⟨b, x, y, rfl, ⟨rfl, rfl⟩ | ⟨rfl, rfl⟩, h⟩
    · simp only [Bool.false_eq_true, if_false] at h
      obtain ⟨rfl, rfl⟩ := h
      exact .inl ⟨rfl, rfl⟩
    · simp only [if_true] at h
      obtain ⟨w, rfl, h⟩ := h
      exact .inr ⟨w, y, rfl, rfl, h⟩

theorem counted {p : Prog DeErr α} {R : α → List UInt8 → List UInt8 → Prop}
    (hp : ParsesIn t p R) (f : List α → β) :
    ParsesIn t (do
      let count ← io decodeU64
      let vs ← De.times (t.asUsize count) p
      pure (f vs)) fun v bs r => ∃ vs l u, v = f vs ∧ bs = l ++ u ∧
        CountIn t.ptr.bits vs.length l ∧ JoinedIn R vs u r := by
  refine (Parses.u64.inn.bind fun c => ((hp.times (t.asUsize c)).wrap f)).congr
    fun v u r => ⟨?_, ?_⟩
  · rintro ⟨vs, l, w, rfl, rfl, ⟨m, h1, h3⟩, h2⟩
    have hlt : m < 2 ^ 64 := varintDecode_lt (by simp) ((number_iff 64 (by simp) _ _).mp h1)
    have hc : (UInt64.ofNat m).toNat = m := by
      rw [UInt64.toNat_ofNat', Nat.mod_eq_of_lt hlt]
    refine ⟨UInt64.ofNat m, l, w, rfl, by rw [hc]; exact h1, vs, rfl, ?_, h2⟩
    rw [Target.asUsize, hc]
    exact h3
  · rintro ⟨c, l, w, rfl, h1, vs, rfl, h3, h2⟩
    exact ⟨vs, l, w, rfl, rfl, ⟨c.toNat, h1, h3⟩, h2⟩

theorem pair {p q : Prog DeErr Val} {R S : Val → List UInt8 → List UInt8 → Prop}
    (hp : ParsesIn t p R) (hq : ParsesIn t q S) :
    ParsesIn t (do let k ← p; let v ← q; pure (k, v)) fun (e : Val × Val) x r =>
      ∃ a b, x = a ++ b ∧ R e.1 a (b ++ r) ∧ S e.2 b r := by
  refine (hp.bind fun k => hq.wrap fun v => (k, v)).congr fun e u r => ⟨?_, ?_⟩
  · rintro ⟨a, b, rfl, h1, h2⟩; exact ⟨e.1, a, b, rfl, h1, e.2, rfl, h2⟩
  · rintro ⟨k, a, b, rfl, h1, v, rfl, h2⟩; exact ⟨a, b, rfl, h1, h2⟩

end ParsesIn

variable {t : Target}

mutual
theorem parsesIn_de (hm : 4096 ≤ t.memLimit) :
    ∀ ty : Ty, ParsesIn t (de t ty) (DenotesIn t.ptr.bits ty)
  | .bool => by
    rw [de]
    refine (Parses.bool.wrap Val.bool).inn.congr fun v u r => ?_
    rw [DenotesIn, Denotes]
    · constructor
      · rintro (⟨rfl, rfl⟩ | ⟨rfl, rfl⟩)
        · exact ⟨_, rfl, .inl ⟨rfl, rfl⟩⟩
        · exact ⟨_, rfl, .inr ⟨rfl, rfl⟩⟩
      · rintro ⟨b, rfl, ⟨rfl, rfl⟩ | ⟨rfl, rfl⟩⟩
        · exact .inl ⟨rfl, rfl⟩
        · exact .inr ⟨rfl, rfl⟩
    all_goals simp
  | .i8 => by
    rw [de]; exact (Parses.i8.wrap Val.i8).inn.congr fun v u r => by rw [DenotesIn, Denotes] <;> simp
  | .i16 => by
    rw [de]; exact (Parses.i16.wrap Val.i16).inn.congr fun v u r => by rw [DenotesIn, Denotes] <;> simp
  | .i32 => by
    rw [de]; exact (Parses.i32.wrap Val.i32).inn.congr fun v u r => by rw [DenotesIn, Denotes] <;> simp
  | .i64 => by
    rw [de]; exact (Parses.i64.wrap Val.i64).inn.congr fun v u r => by rw [DenotesIn, Denotes] <;> simp
  | .u8 => by
    rw [de]; exact (Parses.u8.wrap Val.u8).inn.congr fun v u r => by rw [DenotesIn, Denotes] <;> simp
  | .u16 => by
    rw [de]; exact (Parses.u16.wrap Val.u16).inn.congr fun v u r => by rw [DenotesIn, Denotes] <;> simp
  | .u32 => by
    rw [de]; exact (Parses.u32.wrap Val.u32).inn.congr fun v u r => by rw [DenotesIn, Denotes] <;> simp
  | .u64 => by
    rw [de]; exact (Parses.u64.wrap Val.u64).inn.congr fun v u r => by rw [DenotesIn, Denotes] <;> simp
  | .f32 => by
    rw [de]; exact (Parses.f32.wrap Val.f32).inn.congr fun v u r => by rw [DenotesIn, Denotes] <;> simp
  | .f64 => by
    rw [de]; exact (Parses.f64.wrap Val.f64).inn.congr fun v u r => by rw [DenotesIn, Denotes] <;> simp
  | .char => by
    rw [de]
    exact (ParsesIn.char.wrap Val.char).congr fun v u r => by
      rw [DenotesIn]; simp only [exists_and_left]
  | .string => by
    rw [de]; exact (ParsesIn.string.wrap Val.str).congr fun v u r => by rw [DenotesIn]
  | .byteBuf => by
    rw [de]; exact ((ParsesIn.byteBuf hm).wrap Val.bytes).congr fun v u r => by rw [DenotesIn]
  | .i128 => by
    rw [de]; exact (Parses.never (by intro _ _ _ _ h; cases h)).inn.congr fun v u r => by
      rw [DenotesIn, Denotes] <;> simp
  | .u128 => by
    rw [de]; exact (Parses.never (by intro _ _ _ _ h; cases h)).inn.congr fun v u r => by
      rw [DenotesIn, Denotes] <;> simp
  | .any => by
    rw [de]; exact (Parses.never (by intro _ _ _ _ h; cases h)).inn.congr fun v u r => by
      rw [DenotesIn, Denotes] <;> simp
  | .str => by
    rw [de]; exact (Parses.never (by intro _ _ _ _ h; cases h)).inn.congr fun v u r => by
      rw [DenotesIn, Denotes] <;> simp
  | .bytes => by
    rw [de]; exact (Parses.never (by intro _ _ _ _ h; cases h)).inn.congr fun v u r => by
      rw [DenotesIn, Denotes] <;> simp
  | .ignoredAny => by
    rw [de]; exact (Parses.never (by intro _ _ _ _ h; cases h)).inn.congr fun v u r => by
      rw [DenotesIn, Denotes] <;> simp
  | .option ty => by
    rw [de]; exact (ParsesIn.option (parsesIn_de hm ty)).congr fun v u r => by rw [DenotesIn]
  | .unit => by
    rw [de]; exact (Parses.ret Val.unit).inn.congr fun v u r => by rw [DenotesIn, Denotes] <;> simp
  | .unitStruct name => by
    rw [de]; exact (Parses.ret (Val.unitStruct name)).inn.congr fun v u r => by
      rw [DenotesIn, Denotes] <;> simp
  | .newtypeStruct name ty => by
    rw [de]
    exact ((parsesIn_de hm ty).wrap (Val.newtypeStruct name)).congr fun v u r => by rw [DenotesIn]
  | .seq ty => by
    rw [de]
    exact (ParsesIn.counted (parsesIn_de hm ty) fun vs => Val.seq (some vs.length) vs).congr
      fun v u r => by rw [DenotesIn]
  | .tuple ts => by
    rw [de]; exact ((parsesIn_deAll hm ts).wrap Val.tuple).congr fun v u r => by rw [DenotesIn]
  | .tupleStruct name ts => by
    rw [de]
    exact ((parsesIn_deAll hm ts).wrap (Val.tupleStruct name)).congr fun v u r => by rw [DenotesIn]
  | .map kt vt => by
    rw [de]
    exact (ParsesIn.counted (ParsesIn.pair (parsesIn_de hm kt) (parsesIn_de hm vt))
      fun es => Val.map (some es.length) es).congr fun v u r => by rw [DenotesIn]
  | .struct name fs => by
    rw [de]
    exact ((parsesIn_deFields hm fs).wrap (Val.struct name)).congr fun v u r => by rw [DenotesIn]
  | .enum name vs => by
    rw [de]
    refine (Parses.u16.inn.bind fun i => parsesIn_deVariant hm name i i.toNat vs).congr
      fun v u r => ?_
    rw [DenotesIn]
    constructor
    · rintro ⟨i, l, w, rfl, h1, h2⟩
      have hlt : i < 2 ^ 16 := varintDecode_lt (by simp) ((number_iff 16 (by simp) _ _).mp h1)
      have hc : (UInt16.ofNat i).toNat = i := by rw [UInt16.toNat_ofNat', Nat.mod_eq_of_lt hlt]
      exact ⟨UInt16.ofNat i, l, w, rfl, by rw [hc]; exact h1, by rw [hc]; exact h2⟩
    · rintro ⟨i, l, w, rfl, h1, h2⟩
      exact ⟨i.toNat, l, w, rfl, h1, h2⟩
theorem parsesIn_deAll (hm : 4096 ≤ t.memLimit) :
    ∀ ts : List Ty, ParsesIn t (deAll t ts) (DenotesAllIn t.ptr.bits ts)
  | [] => by rw [deAll]; exact (Parses.ret []).inn.congr fun v u r => by rw [DenotesAllIn]
  | ty :: ts => by
    rw [deAll]
    refine ((parsesIn_de hm ty).bind fun w => (parsesIn_deAll hm ts).wrap (w :: ·)).congr
      fun v u r => ?_
    rw [DenotesAllIn]
    constructor
    · rintro ⟨w, ws, x, y, rfl, rfl, h1, h2⟩; exact ⟨w, x, y, rfl, h1, ws, rfl, h2⟩
    · rintro ⟨w, x, y, rfl, h1, ws, rfl, h2⟩; exact ⟨w, ws, x, y, rfl, rfl, h1, h2⟩
theorem parsesIn_deFields (hm : 4096 ≤ t.memLimit) :
    ∀ fs : List (String × Ty), ParsesIn t (deFields t fs) (DenotesFieldsIn t.ptr.bits fs)
  | [] => by rw [deFields]; exact (Parses.ret []).inn.congr fun v u r => by rw [DenotesFieldsIn]
  | (n, ty) :: ts => by
    rw [deFields]
    refine ((parsesIn_de hm ty).bind fun w => (parsesIn_deFields hm ts).wrap ((n, w) :: ·)).congr
      fun v u r => ?_
    rw [DenotesFieldsIn]
    constructor
    · rintro ⟨w, ws, x, y, rfl, rfl, h1, h2⟩; exact ⟨w, x, y, rfl, h1, ws, rfl, h2⟩
    · rintro ⟨w, x, y, rfl, h1, ws, rfl, h2⟩; exact ⟨w, ws, x, y, rfl, rfl, h1, h2⟩
theorem parsesIn_deVariant (hm : 4096 ≤ t.memLimit) (name : String) (i : UInt16) :
    ∀ (n : Nat) (vs : List (String × VTy)),
      ParsesIn t (deVariant t name i n vs) (DenotesVariantIn t.ptr.bits name i.toNat n vs)
  | _, [] => by
    rw [deVariant]
    exact (Parses.never (by intro _ _ _ _ h; cases h)).inn.congr fun v u r => by
      rw [DenotesVariantIn]
  | n + 1, _ :: vs => by
    rw [deVariant]
    exact (parsesIn_deVariant hm name i n vs).congr fun v u r => by rw [DenotesVariantIn]
  | 0, (vn, vt) :: _ => by
    rw [deVariant]
    exact (parsesIn_dePayload hm name i.toUInt32 vn vt).congr fun v u r => by
      rw [DenotesVariantIn]
      have : UInt32.ofNat i.toNat = i.toUInt32 := by
        rw [← UInt32.toNat_inj]; simp
      rw [this]
theorem parsesIn_dePayload (hm : 4096 ≤ t.memLimit) (name : String) (i : UInt32) (vn : String) :
    ∀ vt : VTy, ParsesIn t (dePayload t name i vn vt) (DenotesPayloadIn t.ptr.bits name i vn vt)
  | .unit => by
    rw [dePayload]
    exact (Parses.ret (Val.unitVariant name i vn)).inn.congr fun v u r => by rw [DenotesPayloadIn]
  | .newtype ty => by
    rw [dePayload]
    exact ((parsesIn_de hm ty).wrap (Val.newtypeVariant name i vn)).congr fun v u r => by
      rw [DenotesPayloadIn]
  | .tuple ts => by
    rw [dePayload]
    exact ((parsesIn_deAll hm ts).wrap (Val.tupleVariant name i vn)).congr fun v u r => by
      rw [DenotesPayloadIn]
  | .struct fs => by
    rw [dePayload]
    exact ((parsesIn_deFields hm fs).wrap (Val.structVariant name i vn)).congr fun v u r => by
      rw [DenotesPayloadIn]
end

end De

/-! ## Lengths that fit -/

namespace Spec

section
variable {bits : Nat} {ok : UInt8 → Prop}

theorem joinedIn_iff {α : Type} {R : α → List UInt8 → List UInt8 → Prop}
    {S : α → List UInt8 → Prop} (h : ∀ a u r, (∀ b ∈ u, ok b) → (R a u r ↔ S a u)) :
    ∀ (vs : List α) (u r : List UInt8), (∀ b ∈ u, ok b) → (JoinedIn R vs u r ↔ Joined S vs u)
  | [], _, _, _ => Iff.rfl
  | a :: as, u, r, hu => by
    constructor
    · rintro ⟨x, y, rfl, h1, h2⟩
      exact ⟨x, y, rfl, (h a x _ fun b hb => hu b (by simp [hb])).mp h1,
        (joinedIn_iff h as y r fun b hb => hu b (by simp [hb])).mp h2⟩
    · rintro ⟨x, y, rfl, h1, h2⟩
      exact ⟨x, y, rfl, (h a x _ fun b hb => hu b (by simp [hb])).mpr h1,
        (joinedIn_iff h as y r fun b hb => hu b (by simp [hb])).mpr h2⟩

variable (H : ∀ m l, Number 64 m l → (∀ b ∈ l, ok b) → m < 2 ^ bits)
include H

theorem countIn_iff (n : Nat) (l : List UInt8) (hl : ∀ b ∈ l, ok b) :
    CountIn bits n l ↔ Number 64 n l := by
  constructor
  · rintro ⟨m, h1, rfl⟩
    rw [Nat.mod_eq_of_lt (H m l h1 hl)]
    exact h1
  · intro h
    exact ⟨n, h, (Nat.mod_eq_of_lt (H n l h hl)).symm⟩

theorem textIn_iff (body u r : List UInt8) (hu : ∀ b ∈ u, ok b) :
    TextIn bits body u r ↔ Prefixed body u := by
  constructor
  · rintro ⟨m, l, h1, rfl, h2, -⟩
    have := H m l h1 fun b hb => hu b (by simp [hb])
    rw [Nat.mod_eq_of_lt this] at h2
    exact ⟨l, by rw [h2]; exact h1, rfl⟩
  · rintro ⟨l, h1, rfl⟩
    have := H _ l h1 fun b hb => hu b (by simp [hb])
    exact ⟨_, l, h1, rfl, (Nat.mod_eq_of_lt this).symm, fun h => by omega⟩

theorem bytesIn_iff (body u : List UInt8) (hu : ∀ b ∈ u, ok b) :
    BytesIn bits body u ↔ Prefixed body u := by
  constructor
  · rintro ⟨m, l, h1, rfl, h2⟩
    have := H m l h1 fun b hb => hu b (by simp [hb])
    rw [bufferBytes, if_pos this] at h2
    exact ⟨l, by rw [h2]; exact h1, rfl⟩
  · rintro ⟨l, h1, rfl⟩
    have := H _ l h1 fun b hb => hu b (by simp [hb])
    exact ⟨_, l, h1, rfl, by rw [bufferBytes, if_pos this]⟩

mutual
theorem denotesIn_iff : ∀ (ty : Ty) (v : Val) (u r : List UInt8), (∀ b ∈ u, ok b) →
    (DenotesIn bits ty v u r ↔ Denotes ty v u)
  | .bool, _, _, _, _ => by rw [DenotesIn] <;> simp
  | .i8, _, _, _, _ => by rw [DenotesIn] <;> simp
  | .i16, _, _, _, _ => by rw [DenotesIn] <;> simp
  | .i32, _, _, _, _ => by rw [DenotesIn] <;> simp
  | .i64, _, _, _, _ => by rw [DenotesIn] <;> simp
  | .i128, _, _, _, _ => by rw [DenotesIn] <;> simp
  | .u8, _, _, _, _ => by rw [DenotesIn] <;> simp
  | .u16, _, _, _, _ => by rw [DenotesIn] <;> simp
  | .u32, _, _, _, _ => by rw [DenotesIn] <;> simp
  | .u64, _, _, _, _ => by rw [DenotesIn] <;> simp
  | .u128, _, _, _, _ => by rw [DenotesIn] <;> simp
  | .f32, _, _, _, _ => by rw [DenotesIn] <;> simp
  | .f64, _, _, _, _ => by rw [DenotesIn] <;> simp
  | .any, _, _, _, _ => by rw [DenotesIn] <;> simp
  | .str, _, _, _, _ => by rw [DenotesIn] <;> simp
  | .bytes, _, _, _, _ => by rw [DenotesIn] <;> simp
  | .ignoredAny, _, _, _, _ => by rw [DenotesIn] <;> simp
  | .unit, _, _, _, _ => by rw [DenotesIn] <;> simp
  | .unitStruct _, _, _, _, _ => by rw [DenotesIn] <;> simp
  | .char, v, u, r, hu => by
    rw [DenotesIn, Denotes]
    simp only [textIn_iff H _ u r hu]
  | .string, v, u, r, hu => by
    rw [DenotesIn, Denotes]
    simp only [textIn_iff H _ u r hu]
  | .byteBuf, v, u, r, hu => by
    rw [DenotesIn, Denotes]
    simp only [bytesIn_iff H _ u hu]
  | .option ty, v, u, r, hu => by
    rw [DenotesIn, Denotes]
    refine or_congr Iff.rfl ⟨?_, ?_⟩
    · rintro ⟨w, x, rfl, rfl, h⟩
      exact ⟨w, x, rfl, rfl, (denotesIn_iff ty w x r fun b hb => hu b (by simp [hb])).mp h⟩
    · rintro ⟨w, x, rfl, rfl, h⟩
      exact ⟨w, x, rfl, rfl, (denotesIn_iff ty w x r fun b hb => hu b (by simp [hb])).mpr h⟩
  | .newtypeStruct name ty, v, u, r, hu => by
    rw [DenotesIn, Denotes]
    simp only [fun w => denotesIn_iff ty w u r hu]
  | .seq ty, v, u, r, hu => by
    rw [DenotesIn, Denotes]
    constructor
    · rintro ⟨vs, l, x, rfl, rfl, h1, h2⟩
      exact ⟨vs, l, x, rfl, rfl, (countIn_iff H _ l fun b hb => hu b (by simp [hb])).mp h1,
        (joinedIn_iff (denotesIn_iff ty) vs x r fun b hb => hu b (by simp [hb])).mp h2⟩
    · rintro ⟨vs, l, x, rfl, rfl, h1, h2⟩
      exact ⟨vs, l, x, rfl, rfl, (countIn_iff H _ l fun b hb => hu b (by simp [hb])).mpr h1,
        (joinedIn_iff (denotesIn_iff ty) vs x r fun b hb => hu b (by simp [hb])).mpr h2⟩
  | .tuple ts, v, u, r, hu => by
    rw [DenotesIn, Denotes]
    simp only [fun w => denotesAllIn_iff ts w u r hu]
  | .tupleStruct name ts, v, u, r, hu => by
    rw [DenotesIn, Denotes]
    simp only [fun w => denotesAllIn_iff ts w u r hu]
  | .map kt vt, v, u, r, hu => by
    have hp : ∀ (e : Val × Val) (x r : List UInt8), (∀ b ∈ x, ok b) →
        ((∃ a b, x = a ++ b ∧ DenotesIn bits kt e.1 a (b ++ r) ∧ DenotesIn bits vt e.2 b r) ↔
          ∃ a b, x = a ++ b ∧ Denotes kt e.1 a ∧ Denotes vt e.2 b) := by
      intro e x r hx
      constructor
      · rintro ⟨a, b, rfl, h1, h2⟩
        exact ⟨a, b, rfl, (denotesIn_iff kt e.1 a _ fun b hb => hx b (by simp [hb])).mp h1,
          (denotesIn_iff vt e.2 b r fun b hb => hx b (by simp [hb])).mp h2⟩
      · rintro ⟨a, b, rfl, h1, h2⟩
        exact ⟨a, b, rfl, (denotesIn_iff kt e.1 a _ fun b hb => hx b (by simp [hb])).mpr h1,
          (denotesIn_iff vt e.2 b r fun b hb => hx b (by simp [hb])).mpr h2⟩
    rw [DenotesIn, Denotes]
    constructor
    · rintro ⟨vs, l, x, rfl, rfl, h1, h2⟩
      exact ⟨vs, l, x, rfl, rfl, (countIn_iff H _ l fun b hb => hu b (by simp [hb])).mp h1,
        (joinedIn_iff hp vs x r fun b hb => hu b (by simp [hb])).mp h2⟩
    · rintro ⟨vs, l, x, rfl, rfl, h1, h2⟩
      exact ⟨vs, l, x, rfl, rfl, (countIn_iff H _ l fun b hb => hu b (by simp [hb])).mpr h1,
        (joinedIn_iff hp vs x r fun b hb => hu b (by simp [hb])).mpr h2⟩
  | .struct name fs, v, u, r, hu => by
    rw [DenotesIn, Denotes]
    simp only [fun w => denotesFieldsIn_iff fs w u r hu]
  | .enum name vs, v, u, r, hu => by
    rw [DenotesIn, Denotes]
    constructor
    · rintro ⟨i, l, x, rfl, h1, h2⟩
      exact ⟨i, l, x, rfl, h1,
        (denotesVariantIn_iff name i i vs v x r fun b hb => hu b (by simp [hb])).mp h2⟩
    · rintro ⟨i, l, x, rfl, h1, h2⟩
      exact ⟨i, l, x, rfl, h1,
        (denotesVariantIn_iff name i i vs v x r fun b hb => hu b (by simp [hb])).mpr h2⟩
theorem denotesAllIn_iff : ∀ (ts : List Ty) (vs : List Val) (u r : List UInt8), (∀ b ∈ u, ok b) →
    (DenotesAllIn bits ts vs u r ↔ DenotesAll ts vs u)
  | [], _, _, _, _ => by rw [DenotesAllIn, DenotesAll]
  | ty :: ts, vs, u, r, hu => by
    rw [DenotesAllIn, DenotesAll]
    constructor
    · rintro ⟨w, ws, x, y, rfl, rfl, h1, h2⟩
      exact ⟨w, ws, x, y, rfl, rfl, (denotesIn_iff ty w x _ fun b hb => hu b (by simp [hb])).mp h1,
        (denotesAllIn_iff ts ws y r fun b hb => hu b (by simp [hb])).mp h2⟩
    · rintro ⟨w, ws, x, y, rfl, rfl, h1, h2⟩
      exact ⟨w, ws, x, y, rfl, rfl, (denotesIn_iff ty w x _ fun b hb => hu b (by simp [hb])).mpr h1,
        (denotesAllIn_iff ts ws y r fun b hb => hu b (by simp [hb])).mpr h2⟩
theorem denotesFieldsIn_iff : ∀ (fs : List (String × Ty)) (vs : List (String × Val))
    (u r : List UInt8), (∀ b ∈ u, ok b) → (DenotesFieldsIn bits fs vs u r ↔ DenotesFields fs vs u)
  | [], _, _, _, _ => by rw [DenotesFieldsIn, DenotesFields]
  | (n, ty) :: ts, vs, u, r, hu => by
    rw [DenotesFieldsIn, DenotesFields]
    constructor
    · rintro ⟨w, ws, x, y, rfl, rfl, h1, h2⟩
      exact ⟨w, ws, x, y, rfl, rfl, (denotesIn_iff ty w x _ fun b hb => hu b (by simp [hb])).mp h1,
        (denotesFieldsIn_iff ts ws y r fun b hb => hu b (by simp [hb])).mp h2⟩
    · rintro ⟨w, ws, x, y, rfl, rfl, h1, h2⟩
      exact ⟨w, ws, x, y, rfl, rfl, (denotesIn_iff ty w x _ fun b hb => hu b (by simp [hb])).mpr h1,
        (denotesFieldsIn_iff ts ws y r fun b hb => hu b (by simp [hb])).mpr h2⟩
theorem denotesVariantIn_iff (name : String) (i : Nat) : ∀ (k : Nat) (vs : List (String × VTy))
    (v : Val) (u r : List UInt8), (∀ b ∈ u, ok b) →
    (DenotesVariantIn bits name i k vs v u r ↔ DenotesVariant name i k vs v u)
  | _, [], _, _, _, _ => by rw [DenotesVariantIn, DenotesVariant]
  | k + 1, _ :: vs, v, u, r, hu => by
    rw [DenotesVariantIn, DenotesVariant]
    exact denotesVariantIn_iff name i k vs v u r hu
  | 0, (vn, vt) :: _, v, u, r, hu => by
    rw [DenotesVariantIn, DenotesVariant]
    exact denotesPayloadIn_iff name _ vn vt v u r hu
theorem denotesPayloadIn_iff (name : String) (i : UInt32) (vn : String) : ∀ (vt : VTy) (v : Val)
    (u r : List UInt8), (∀ b ∈ u, ok b) →
    (DenotesPayloadIn bits name i vn vt v u r ↔ DenotesPayload name i vn vt v u)
  | .unit, _, _, _, _ => by rw [DenotesPayloadIn, DenotesPayload]
  | .newtype ty, v, u, r, hu => by
    rw [DenotesPayloadIn, DenotesPayload]
    simp only [fun w => denotesIn_iff ty w u r hu]
  | .tuple ts, v, u, r, hu => by
    rw [DenotesPayloadIn, DenotesPayload]
    simp only [fun w => denotesAllIn_iff ts w u r hu]
  | .struct fs, v, u, r, hu => by
    rw [DenotesPayloadIn, DenotesPayload]
    simp only [fun w => denotesFieldsIn_iff fs w u r hu]
end

end

/-- A number of more than 32 bits begins with a byte of at least 240. -/
theorem number_small {m : Nat} {l : List UInt8} (h : Number 64 m l) (hl : ∀ b ∈ l, b.toNat < 240) :
    m < 2 ^ 32 := by
  rcases h with ⟨k, h1, h2, h3, rfl⟩ | ⟨b, h1, -, rfl⟩
  · have hb := hl _ List.mem_cons_self
    by_cases hk : k ≤ 4
    · have : 2 ^ (7 * k) ≤ 2 ^ 28 := Nat.pow_le_pow_right (by decide) (by omega)
      omega
    · exfalso
      have : k = 5 ∨ k = 6 ∨ k = 7 ∨ k = 8 := by omega
      rcases this with rfl | rfl | rfl | rfl <;>
        · rw [UInt8.toNat_ofNat'] at hb
          omega
  · have hb := hl _ List.mem_cons_self
    omega

end Spec
end Dlhn
