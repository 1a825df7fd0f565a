import Verif.Proof.Writers
import Verif.Proof.Bounds
/-!
# Values that take as many calls of `write` as their type allows
-/
namespace Dlhn

open Spec

/-- It succeeds, with so many calls of `write`. -/
def MakesCalls (p : WProg SerErr) (n : Nat) : Prop := p.exec.2 = .ok () ∧ (writes p).length = n

theorem MakesCalls.andThen {p q : WProg SerErr} {a b : Nat} (hp : MakesCalls p a)
    (hq : MakesCalls q b) :
    MakesCalls (p.andThen q) (a + b) := by
  refine ⟨?_, ?_⟩
  · rw [WProg.exec_andThen_ok (p := p) (o := p.exec.1) (by rw [← hp.1])]
    exact hq.1
  · rw [writes_andThen hp.1, List.length_append, hp.2, hq.2]

theorem makes_skip : MakesCalls .skip 0 := ⟨rfl, rfl⟩

theorem makes_emit {bs : List UInt8} (h : bs ≠ []) : MakesCalls (Ser.emit bs) 1 :=
  ⟨rfl, by simp [writes, Ser.emit, sends, WProg.skip, h]⟩

theorem makes_of_exec {p : WProg SerErr} {bs : List UInt8} (hw : AtMostCalls p 1)
    (h : p.exec = (bs, .ok ())) (hne : 1 ≤ bs.length) : MakesCalls p 1 := by
  refine ⟨by rw [h], ?_⟩
  rw [writes_single hw]
  · rfl
  · rw [h]; intro h'; rw [show bs = [] from h'] at hne; simp at hne

theorem makes_serU32 (i : UInt32) : MakesCalls (Ser.serU32 i) 1 :=
  makes_of_exec (calls_emit _) (Ser.exec_serU32 i) (varint_pos _ _)

theorem makes_serLen (n : Nat) : MakesCalls (Ser.serLen n) 1 :=
  makes_of_exec (calls_emit _) (Ser.exec_serU64 _) (varint_pos _ _)

/-- `S` has a member, has the bound as a member, and without a bound has members above
everything below `N`. -/
structure Reaches (N : Nat) (S : Nat → Prop) (hi : Option Nat) : Prop where
  has : ∃ n, S n
  top : ∀ m, hi = some m → S m
  above : hi = none → ∀ k, k < N → ∃ n, k ≤ n ∧ S n

namespace Reaches

variable {N : Nat} {S T : Nat → Prop} {b d : Option Nat}

theorem one {n : Nat} (h : S n) : Reaches N S (some n) :=
  ⟨⟨n, h⟩, fun m hm => by cases hm; exact h, fun h => by cases h⟩

theorem imp (h : Reaches N S b) (hST : ∀ n, S n → T n) : Reaches N T b where
  has := let ⟨n, hn⟩ := h.has; ⟨n, hST n hn⟩
  top m hm := hST m (h.top m hm)
  above hb k hk := let ⟨n, h1, h2⟩ := h.above hb k hk; ⟨n, h1, hST n h2⟩

theorem add (h1 : Reaches N S b) (h2 : Reaches N T d) :
    Reaches N (fun n => ∃ x y, S x ∧ T y ∧ n = x + y) (addBound b d) where
  has := let ⟨x, hx⟩ := h1.has; let ⟨y, hy⟩ := h2.has; ⟨_, x, y, hx, hy, rfl⟩
  top m hm := by
    obtain ⟨x, y, rfl, rfl, rfl⟩ := addBound_split hm
    exact ⟨x, y, h1.top x rfl, h2.top y rfl, rfl⟩
  above hb k hk := by
    obtain ⟨x, hx⟩ := h1.has
    obtain ⟨y, hy⟩ := h2.has
    cases b with
    | none =>
      obtain ⟨n, hn, hs⟩ := h1.above rfl k hk
      exact ⟨n + y, by omega, n, y, hs, hy, rfl⟩
    | some b =>
      cases d with
      | some d => cases hb
      | none =>
        obtain ⟨n, hn, hs⟩ := h2.above rfl k hk
        exact ⟨x + n, by omega, x, n, hx, hs, rfl⟩

theorem union (h1 : Reaches N S b) (h2 : Reaches N T d) :
    Reaches N (fun n => S n ∨ T n) (maxBound b d) where
  has := let ⟨x, hx⟩ := h1.has; ⟨x, .inl hx⟩
  top m hm := by
    cases b <;> cases d <;> simp only [maxBound] at hm
    all_goals first | (cases hm; done) | skip
    rename_i b d
    cases hm
    rcases Nat.le_total b d with h | h
    · rw [Nat.max_eq_right h]; exact .inr (h2.top _ rfl)
    · rw [Nat.max_eq_left h]; exact .inl (h1.top _ rfl)
  above hb k hk := by
    cases b with
    | none => obtain ⟨n, hn, hs⟩ := h1.above rfl k hk; exact ⟨n, hn, .inl hs⟩
    | some b =>
      cases d with
      | some d => cases hb
      | none => obtain ⟨n, hn, hs⟩ := h2.above rfl k hk; exact ⟨n, hn, .inr hs⟩

end Reaches

/-- Values of the type that take so many calls. -/
def Calls (t : Target) (ty : Ty) (n : Nat) : Prop := ∃ v, Has t ty v ∧ MakesCalls (Ser.ser v) n

theorem makes_replicate {v : Val} {n : Nat} (h : MakesCalls (Ser.ser v) n) (k : Nat) :
    MakesCalls (Ser.serAll (List.replicate k v)) (k * n) := by
  induction k with
  | zero => rw [Nat.zero_mul, List.replicate_zero, Ser.serAll]; exact makes_skip
  | succ k ih =>
    rw [List.replicate_succ, Ser.serAll, Nat.succ_mul, Nat.add_comm]
    exact h.andThen ih

theorem reaches_seq {t : Target} {ty : Ty} {hi : Option Nat}
    (h : Reaches (top t) (Calls t ty) hi) :
    Reaches (top t) (Calls t (.seq ty)) (if hi = some 0 then some 1 else none) := by
  have h1 : Calls t (.seq ty) 1 := by
    refine ⟨.seq (some ([] : List Val).length) [], ?_, ?_⟩
    · rw [Has]; exact ⟨[], rfl, Nat.two_pow_pos _, by simp⟩
    · rw [Ser.ser, Ser.serHint, Ser.serAll]; exact (makes_serLen _).andThen makes_skip
  refine ⟨⟨1, h1⟩, fun m hm => ?_, fun hb k hk => ?_⟩
  · split at hm
    · cases hm; exact h1
    · cases hm
  · cases hi with
    | none =>
      obtain ⟨n, hn, v, hv, hw⟩ := h.above rfl k hk
      refine ⟨1 + (n + 0), by omega, .seq (some [v].length) [v], ?_, ?_⟩
      · rw [Has]
        exact ⟨[v], rfl, one_lt t, by intro w hw; simp at hw; subst hw; exact hv⟩
      · rw [Ser.ser, Ser.serHint, Ser.serAll, Ser.serAll]
        exact (makes_serLen _).andThen (hw.andThen makes_skip)
    | some m =>
      have h0 : m ≠ 0 := by
        rintro rfl
        rw [if_pos rfl] at hb; cases hb
      obtain ⟨v, hv, hw⟩ := h.top m rfl
      refine ⟨1 + k * m, ?_,
        .seq (some (List.replicate k v).length) (List.replicate k v), ?_, ?_⟩
      · have := Nat.le_mul_of_pos_right k (Nat.pos_of_ne_zero h0)
        omega
      · rw [Has]
        refine ⟨_, rfl, by rw [List.length_replicate]; exact hk, ?_⟩
        intro w hw
        rw [List.eq_of_mem_replicate hw]; exact hv
      · rw [Ser.ser, Ser.serHint]; exact (makes_serLen _).andThen (makes_replicate hw k)

theorem makes_entries {v : Val} {n : Nat} (h : MakesCalls (Ser.ser v) n) (k : Nat) :
    ∃ m, k ≤ m ∧ MakesCalls (Ser.serEntries (List.replicate k (.str "a", v))) m := by
  induction k with
  | zero => exact ⟨0, Nat.le_refl _, by rw [List.replicate_zero, Ser.serEntries]; exact makes_skip⟩
  | succ k ih =>
    obtain ⟨m, h1, h2⟩ := ih
    refine ⟨1 + 1 + (n + m), by omega, ?_⟩
    rw [List.replicate_succ, Ser.serEntries, Ser.serKey, Ser.serStr]
    exact ((makes_serLen _).andThen (makes_emit (by decide))).andThen (h.andThen h2)

theorem reaches_map {t : Target} {ty : Ty} {hi : Option Nat}
    (h : Reaches (top t) (Calls t ty) hi) :
    Reaches (top t) (Calls t (.map .string ty)) none := by
  obtain ⟨n, v, hv, hw⟩ := h.has
  have key : ∀ k, k < top t → ∃ n, k ≤ n ∧ Calls t (.map .string ty) n := by
    intro k hk
    obtain ⟨m, h1, h2⟩ := makes_entries hw k
    refine ⟨1 + m, by omega, .map (some (List.replicate k (Val.str "a", v)).length)
      (List.replicate k (.str "a", v)), ?_, ?_⟩
    · rw [Has]
      refine ⟨_, rfl, by rw [List.length_replicate]; exact hk, ?_⟩
      intro e he
      rw [List.eq_of_mem_replicate he]
      refine ⟨?_, hv⟩
      rw [Has]
      exact ⟨"a", rfl, by have : (utf8 "a").length = 1 := by decide
                          rw [this]; exact one_lt t⟩
    · rw [Ser.ser, Ser.serHint]; exact (makes_serLen _).andThen h2
  refine ⟨?_, fun m hm => (by cases hm), fun _ => key⟩
  obtain ⟨n, -, hn⟩ := key 0 (Nat.two_pow_pos _)
  exact ⟨n, hn⟩

mutual
theorem reaches_ty {t : Target} : (ty : Ty) → Supported ty → Populated ty →
    Reaches (top t) (Calls t ty) (maxWrites ty)
  | .bool, _, _ => .one ⟨.bool true, by simp [Has], makes_emit (by decide)⟩
  | .i8, _, _ => .one ⟨.i8 0, by simp [Has], makes_emit (by decide)⟩
  | .u8, _, _ => .one ⟨.u8 0, by simp [Has], makes_emit (by decide)⟩
  | .i16, _, _ => .one ⟨.i16 0, by simp [Has], makes_emit (by decide +kernel)⟩
  | .u16, _, _ => .one ⟨.u16 0, by simp [Has], makes_emit (by decide +kernel)⟩
  | .i32, _, _ => .one ⟨.i32 0, by simp [Has], makes_emit (by decide +kernel)⟩
  | .u32, _, _ => .one ⟨.u32 0, by simp [Has], makes_emit (by decide +kernel)⟩
  | .i64, _, _ => .one ⟨.i64 0, by simp [Has], makes_emit (by decide +kernel)⟩
  | .u64, _, _ => .one ⟨.u64 0, by simp [Has], makes_emit (by decide +kernel)⟩
  | .f32, _, _ => .one ⟨.f32 0, by simp [Has], makes_emit (by decide)⟩
  | .f64, _, _ => .one ⟨.f64 0, by simp [Has], makes_emit (by decide)⟩
  | .i128, hs, _ | .u128, hs, _ | .str, hs, _ | .bytes, hs, _ | .any, hs, _
  | .ignoredAny, hs, _ => absurd hs (by simp [Supported])
  | .char, _, _ => .one ⟨.char 'a', by simp [Has], (makes_serLen _).andThen (makes_emit (by decide))⟩
  | .string, _, _ => .one ⟨.str "a", by
      rw [Has]
      exact ⟨"a", rfl, by have : (utf8 "a").length = 1 := by decide
                          rw [this]; exact one_lt t⟩,
      (makes_serLen _).andThen (makes_emit (by decide))⟩
  | .byteBuf, _, _ => .one ⟨.bytes [0], by rw [Has]; exact ⟨[0], rfl, one_lt t⟩,
      (makes_serLen _).andThen (makes_emit (by decide))⟩
  | .unit, _, _ => .one ⟨.unit, by simp [Has], makes_skip⟩
  | .unitStruct n, _, _ => .one ⟨.unitStruct n, by simp [Has], makes_skip⟩
  | .option ty, hs, hp => by
    rw [Supported] at hs; rw [Populated] at hp; rw [maxWrites]
    refine ((Reaches.one (S := (· = 1)) rfl).add (reaches_ty (t := t) ty hs hp)).imp ?_
    rintro n ⟨x, y, rfl, ⟨v, hv, hw⟩, rfl⟩
    exact ⟨.some v, by rw [Has]; exact .inr ⟨v, rfl, hv⟩, by
      rw [Ser.ser]; exact (makes_emit (by decide)).andThen hw⟩
  | .newtypeStruct name ty, hs, hp => by
    rw [Supported] at hs; rw [Populated] at hp; rw [maxWrites]
    refine (reaches_ty (t := t) ty hs hp).imp ?_
    rintro n ⟨v, hv, hw⟩
    exact ⟨.newtypeStruct name v, by rw [Has]; exact ⟨v, rfl, hv⟩, by rw [Ser.ser]; exact hw⟩
  | .seq ty, hs, hp => by
    rw [Supported] at hs; rw [Populated] at hp; rw [maxWrites]
    exact reaches_seq (reaches_ty (t := t) ty hs hp)
  | .tuple ts, hs, hp => by
    rw [Supported] at hs; rw [Populated] at hp; rw [maxWrites]
    refine (reaches_all (t := t) ts hs hp).imp ?_
    rintro n ⟨v, hv, hw⟩
    exact ⟨.tuple v, by rw [Has]; exact ⟨v, rfl, hv⟩, by rw [Ser.ser]; exact hw⟩
  | .tupleStruct name ts, hs, hp => by
    rw [Supported] at hs; rw [Populated] at hp; rw [maxWrites]
    refine (reaches_all (t := t) ts hs hp).imp ?_
    rintro n ⟨v, hv, hw⟩
    exact ⟨.tupleStruct name v, by rw [Has]; exact ⟨v, rfl, hv⟩, by rw [Ser.ser]; exact hw⟩
  | .map kt vt, hs, hp => by
    rw [Supported] at hs; rw [Populated] at hp
    obtain ⟨rfl, hs⟩ := hs
    exact reaches_map (reaches_ty (t := t) vt hs hp.2)
  | .struct name fs, hs, hp => by
    rw [Supported] at hs; rw [Populated] at hp; rw [maxWrites]
    refine (reaches_fields (t := t) fs hs hp).imp ?_
    rintro n ⟨v, hv, hw⟩
    exact ⟨.struct name v, by rw [Has]; exact ⟨v, rfl, hv⟩, by rw [Ser.ser]; exact hw⟩
  | .enum name vs, hs, hp => by
    rw [Supported] at hs; rw [Populated] at hp; rw [maxWrites]
    refine ((Reaches.one (S := (· = 1)) rfl).add
      (reaches_variants (t := t) name 0 vs hs.2 hp.1 hp.2)).imp ?_
    rintro n ⟨x, y, rfl, ⟨v, hv, hw⟩, rfl⟩
    exact ⟨v, by rw [Has]; exact hv, hw⟩
theorem reaches_all {t : Target} : (ts : List Ty) → AllSupported ts → AllPopulated ts →
    Reaches (top t) (fun n => ∃ vs, HasAll t ts vs ∧ MakesCalls (Ser.serAll vs) n) (maxWritesAll ts)
  | [], _, _ => .one ⟨[], by rw [HasAll], makes_skip⟩
  | ty :: ts, hs, hp => by
    rw [AllSupported] at hs; rw [AllPopulated] at hp; rw [maxWritesAll]
    refine ((reaches_ty (t := t) ty hs.1 hp.1).add (reaches_all ts hs.2 hp.2)).imp ?_
    rintro n ⟨x, y, ⟨w, h1, h2⟩, ⟨ws, h3, h4⟩, rfl⟩
    exact ⟨w :: ws, by rw [HasAll]; exact ⟨w, ws, rfl, h1, h3⟩, by
      rw [Ser.serAll]; exact h2.andThen h4⟩
theorem reaches_fields {t : Target} : (fs : List (String × Ty)) → FieldsSupported fs →
    FieldsPopulated fs →
    Reaches (top t) (fun n => ∃ vs, HasFields t fs vs ∧ MakesCalls (Ser.serFields vs) n)
      (maxWritesFields fs)
  | [], _, _ => .one ⟨[], by rw [HasFields], makes_skip⟩
  | (name, ty) :: fs, hs, hp => by
    rw [FieldsSupported] at hs; rw [FieldsPopulated] at hp; rw [maxWritesFields]
    refine ((reaches_ty (t := t) ty hs.1 hp.1).add (reaches_fields fs hs.2 hp.2)).imp ?_
    rintro n ⟨x, y, ⟨w, h1, h2⟩, ⟨ws, h3, h4⟩, rfl⟩
    exact ⟨(name, w) :: ws, by rw [HasFields]; exact ⟨w, ws, rfl, h1, h3⟩, by
      rw [Ser.serFields]; exact h2.andThen h4⟩
theorem reaches_variants {t : Target} (name : String) : (k : Nat) → (vs : List (String × VTy)) →
    VariantsSupported vs → vs ≠ [] → VariantsPopulated vs →
    Reaches (top t) (fun n => ∃ v, HasVariant t name k vs v ∧ MakesCalls (Ser.ser v) (1 + n))
      (maxWritesVariants vs)
  | k, [], _, hn, _ => absurd rfl hn
  | k, [(vn, vt)], hs, _, hp => by
    rw [VariantsSupported] at hs; rw [VariantsPopulated] at hp
    rw [maxWritesVariants, maxWritesVariants]
    have e : maxBound (maxWritesPayload vt) (some 0) = maxWritesPayload vt := by
      cases maxWritesPayload vt with
      | none => rfl
      | some m => simp [maxBound]
    rw [e]
    refine (reaches_payload (t := t) name (UInt32.ofNat k) vn vt hs.1 hp.1).imp ?_
    rintro n ⟨v, hv, hw⟩
    exact ⟨v, by rw [HasVariant]; exact .inl hv, hw⟩
  | k, (vn, vt) :: v2 :: vs, hs, _, hp => by
    rw [VariantsSupported] at hs; rw [VariantsPopulated] at hp; rw [maxWritesVariants]
    refine ((reaches_payload (t := t) name (UInt32.ofNat k) vn vt hs.1 hp.1).union
      (reaches_variants name (k + 1) (v2 :: vs) hs.2 (by simp) hp.2)).imp ?_
    rintro n (⟨v, hv, hw⟩ | ⟨v, hv, hw⟩)
    · exact ⟨v, by rw [HasVariant]; exact .inl hv, hw⟩
    · exact ⟨v, by rw [HasVariant]; exact .inr hv, hw⟩
theorem reaches_payload {t : Target} (name : String) (i : UInt32) (vn : String) : (vt : VTy) →
    PayloadSupported vt → PayloadPopulated vt →
    Reaches (top t) (fun n => ∃ v, HasPayload t name i vn vt v ∧ MakesCalls (Ser.ser v) (1 + n))
      (maxWritesPayload vt)
  | .unit, _, _ => .one ⟨.unitVariant name i vn, by rw [HasPayload], by
      rw [Ser.ser]; exact makes_serU32 i⟩
  | .newtype ty, hs, hp => by
    rw [PayloadSupported] at hs; rw [PayloadPopulated] at hp; rw [maxWritesPayload]
    refine (reaches_ty (t := t) ty hs hp).imp ?_
    rintro n ⟨v, hv, hw⟩
    exact ⟨.newtypeVariant name i vn v, by rw [HasPayload]; exact ⟨v, rfl, hv⟩, by
      rw [Ser.ser]; exact (makes_serU32 i).andThen hw⟩
  | .tuple ts, hs, hp => by
    rw [PayloadSupported] at hs; rw [PayloadPopulated] at hp; rw [maxWritesPayload]
    refine (reaches_all (t := t) ts hs hp).imp ?_
    rintro n ⟨v, hv, hw⟩
    exact ⟨.tupleVariant name i vn v, by rw [HasPayload]; exact ⟨v, rfl, hv⟩, by
      rw [Ser.ser]; exact (makes_serU32 i).andThen hw⟩
  | .struct fs, hs, hp => by
    rw [PayloadSupported] at hs; rw [PayloadPopulated] at hp; rw [maxWritesPayload]
    refine (reaches_fields (t := t) fs hs hp).imp ?_
    rintro n ⟨v, hv, hw⟩
    exact ⟨.structVariant name i vn v, by rw [HasPayload]; exact ⟨v, rfl, hv⟩, by
      rw [Ser.ser]; exact (makes_serU32 i).andThen hw⟩
end

end Dlhn
