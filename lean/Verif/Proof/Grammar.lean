import Verif.Spec.Grammar
import Verif.Proof.DeExact
/-! # The deserializer accepts exactly the grammar -/
namespace Dlhn

namespace Spec

open PrefixVarint (groups_le_iff groups_pos)

theorem byte_of_leadingOnes (b : UInt8) (h : leadingOnes b < 8) :
    b.toNat = 256 - 2 ^ (8 - leadingOnes b) + b.toNat % 2 ^ (7 - leadingOnes b) := by
  have key : ∀ b : BitVec 8, leadingOnes ⟨b⟩ < 8 →
      b.toNat = 256 - 2 ^ (8 - leadingOnes ⟨b⟩) + b.toNat % 2 ^ (7 - leadingOnes ⟨b⟩) := by
    decide +kernel
  exact key b.toBitVec h

theorem le_leadingOnes_iff (b : UInt8) (j : Nat) (hj : j ≤ 8) :
    j ≤ leadingOnes b ↔ 256 - 2 ^ (8 - j) ≤ b.toNat := by
  have key : ∀ b : BitVec 8, ∀ j : Fin 9, j.val ≤ leadingOnes ⟨b⟩ ↔ 256 - 2 ^ (8 - j.val) ≤ b.toNat := by
    decide +kernel
  exact key b.toBitVec ⟨j, by omega⟩

theorem varintDecode_split (w : Nat) (bs rest : List UInt8) (n : Nat) :
    varintDecode w bs = some (n, rest) ↔ ∃ used, bs = used ++ rest ∧ varintDecode w used = some (n, []) := by
  constructor
  · intro h
    cases bs with
    | nil => simp [varintDecode] at h
    | cons b bs =>
      simp only [varintDecode] at h
      split at h
      · cases h
      · rename_i hl
        refine ⟨b :: bs.take (extraBytes w b), ?_, ?_⟩
        · have hr : rest = bs.drop (extraBytes w b) := by
            split at h <;> simp only [Option.some.injEq, Prod.mk.injEq] at h <;> exact h.2.symm
          rw [hr, List.cons_append, List.take_append_drop]
        · simp only [varintDecode]
          rw [if_neg (by simp; omega)]
          rw [List.take_take, Nat.min_self, List.drop_of_length_le (by simp; omega)]
          split at h <;> rename_i hx <;> simp only [Option.some.injEq, Prod.mk.injEq] at h
          · rw [if_pos hx, h.1]
          · rw [if_neg hx, h.1]
  · rintro ⟨used, rfl, h⟩
    cases used with
    | nil => simp [varintDecode] at h
    | cons b us =>
      simp only [varintDecode] at h
      split at h
      · cases h
      · rename_i hl
        have hd : us.drop (extraBytes w b) = [] := by
          split at h <;> simp only [Option.some.injEq, Prod.mk.injEq] at h <;> exact h.2
        have hle := List.drop_eq_nil_iff.mp hd
        have ht : us.take (extraBytes w b) = us := List.take_of_length_le hle
        have ht' : (us ++ rest).take (extraBytes w b) = us := by
          rw [List.take_append_of_le_length (by omega), ht]
        have hd' : (us ++ rest).drop (extraBytes w b) = rest := by
          rw [List.drop_append_of_le_length (by omega), hd, List.nil_append]
        simp only [List.cons_append, varintDecode, ht', hd']
        rw [if_neg (by simp; omega)]
        rw [ht] at h
        split at h <;> rename_i hx <;> simp only [Option.some.injEq, Prod.mk.injEq] at h
        · rw [if_pos hx, h.1]
        · rw [if_neg hx, h.1]

attribute [local irreducible] leadingOnes

theorem number_iff (w : Nat) (hw : w = 16 ∨ w = 32 ∨ w = 64) (n : Nat) (bs : List UInt8) :
    Number w n bs ↔ varintDecode w bs = some (n, []) := by
  have hw8 : w / 8 ≤ 8 ∧ 8 * (w / 8) = w ∧ 2 ≤ w / 8 := by rcases hw with h | h | h <;> subst h <;> omega
  constructor
  · rintro (⟨k, hk1, hk, hlt, rfl⟩ | ⟨b, hb, hlt, rfl⟩)
    · generalize hW : w / 8 = W at *
      have hlo : leadingOnes (UInt8.ofNat (256 - 2 ^ (9 - k) + n % 2 ^ (8 - k))) = k - 1 := by
        apply leadingOnes_char
        · omega
        · have : k = 1 ∨ k = 2 ∨ k = 3 ∨ k = 4 ∨ k = 5 ∨ k = 6 ∨ k = 7 ∨ k = 8 := by omega
          rcases this with h | h | h | h | h | h | h | h <;> subst h <;> simp <;> omega
        · have : k = 1 ∨ k = 2 ∨ k = 3 ∨ k = 4 ∨ k = 5 ∨ k = 6 ∨ k = 7 ∨ k = 8 := by omega
          rcases this with h | h | h | h | h | h | h | h <;> subst h <;> simp <;> omega
      simp only [varintDecode, extraBytes, hlo, hW,
        Nat.min_eq_left (show k - 1 ≤ W by omega)]
      rw [if_neg (by simp), if_pos (by omega), List.take_of_length_le (by simp),
        List.drop_of_length_le (by simp), leValue_leBytes]
      have : k = 1 ∨ k = 2 ∨ k = 3 ∨ k = 4 ∨ k = 5 ∨ k = 6 ∨ k = 7 ∨ k = 8 := by omega
      rcases this with h | h | h | h | h | h | h | h <;> subst h <;> simp <;> omega
    · have hlo := (le_leadingOnes_iff b (w / 8) hw8.1).mpr hb
      simp only [varintDecode, extraBytes, Nat.min_eq_right hlo]
      rw [if_neg (by simp), if_neg (by omega), List.take_of_length_le (by simp),
        List.drop_of_length_le (by simp), leValue_leBytes, pow256, hw8.2.1, Nat.mod_eq_of_lt hlt]
  · intro h
    cases bs with
    | nil => simp [varintDecode] at h
    | cons b bs =>
      have hbound := varintDecode_bound w hw b bs [] n h
      have hd := List.drop_eq_nil_iff.mp hbound.2.2.1.symm
      have hlen : bs.length = extraBytes w b := by omega
      have ht : bs.take (extraBytes w b) = bs := List.take_of_length_le hd
      simp only [varintDecode] at h
      rw [if_neg (by omega), ht] at h
      split at h
      · rename_i hlo
        have hE : extraBytes w b = leadingOnes b := by simp only [extraBytes]; omega
        rw [hE] at h hlen
        simp only [Option.some.injEq, Prod.mk.injEq] at h
        obtain ⟨h, -⟩ := h
        have hb := byte_of_leadingOnes b (by omega)
        have hv := leValue_lt bs
        have hle := leBytes_leValue bs
        rw [hlen, pow256] at hv
        rw [hlen] at hle
        generalize leadingOnes b = j at *
        have hm : b.toNat % 2 ^ (7 - j) < 2 ^ (7 - j) := Nat.mod_lt _ (Nat.two_pow_pos _)
        refine .inl ⟨j + 1, by omega, by omega, ?_, ?_⟩
        · have h2 : 2 ^ (7 - j) * (leValue bs + 1) ≤ 2 ^ (7 - j) * 2 ^ (8 * j) :=
            Nat.mul_le_mul_left _ hv
          rw [← Nat.pow_add, show 7 - j + 8 * j = 7 * (j + 1) by omega, Nat.mul_add, Nat.mul_one] at h2
          omega
        · rw [show 8 - (j + 1) = 7 - j by omega, show 9 - (j + 1) = 8 - j by omega,
            show j + 1 - 1 = j by omega, ← h, Nat.add_mul_mod_self_left,
            Nat.add_mul_div_left _ _ (Nat.two_pow_pos _), Nat.mod_mod, Nat.div_eq_of_lt hm,
            Nat.zero_add, hle, ← hb, UInt8.ofNat_toNat]
      · rename_i hlo
        have hE : extraBytes w b = w / 8 := by simp only [extraBytes]; omega
        simp only [Option.some.injEq, Prod.mk.injEq] at h
        obtain ⟨h, -⟩ := h
        refine .inr ⟨b, (le_leadingOnes_iff b (w / 8) hw8.1).mp (by omega), hbound.1, ?_⟩
        rw [← h]
        have := leBytes_leValue bs
        rw [hlen, hE] at this
        rw [this]

theorem number_decode (w : Nat) (hw : w = 16 ∨ w = 32 ∨ w = 64) (n : Nat) (bs rest : List UInt8) :
    varintDecode w bs = some (n, rest) ↔ ∃ used, bs = used ++ rest ∧ Number w n used := by
  rw [varintDecode_split]
  simp only [number_iff w hw]

end Spec

namespace De

open Spec PrefixVarint
open Prog (exec)

/-- `p` accepts exactly the byte strings that `R` says, with the values it says. -/
def Parses {α : Type} (t : Target) (p : Prog DeErr α) (R : α → List UInt8 → Prop) : Prop :=
  ∀ fin bs v rest, exec t fin p bs = .ok (v, rest) ↔ ∃ used, bs = used ++ rest ∧ R v used

namespace Parses

variable {α β : Type} {t : Target}

theorem congr {p : Prog DeErr α} {R S : α → List UInt8 → Prop} (h : Parses t p R)
    (hs : ∀ v u, S v u ↔ R v u) : Parses t p S := by
  intro fin bs v rest
  rw [h fin bs v rest]
  simp only [hs]

theorem ret (a : α) : Parses t (pure a : Prog DeErr α) fun v u => v = a ∧ u = [] := by
  intro fin bs v rest
  show (.ok (a, bs) : Outcome DeErr (α × List UInt8)) = _ ↔ _
  simp only [Outcome.ok.injEq, Prod.mk.injEq]
  constructor
  · rintro ⟨rfl, rfl⟩; exact ⟨[], rfl, rfl, rfl⟩
  · rintro ⟨u, h1, h2, rfl⟩; exact ⟨h2.symm, by simpa using h1⟩

theorem never {p : Prog DeErr α} (h : ∀ fin bs v rest, exec t fin p bs ≠ .ok (v, rest)) :
    Parses t p fun _ _ => False := by
  intro fin bs v rest
  simp only [and_false, exists_false, iff_false]
  exact h fin bs v rest

theorem bind {p : Prog DeErr α} {k : α → Prog DeErr β} {R : α → List UInt8 → Prop}
    {S : α → β → List UInt8 → Prop} (hp : Parses t p R) (hk : ∀ a, Parses t (k a) (S a)) :
    Parses t (p >>= k) fun w u => ∃ a x y, u = x ++ y ∧ R a x ∧ S a w y := by
  intro fin bs w rest
  rw [Prog.bind_eq, Prog.exec_bind]
  constructor
  · intro h
    cases hx : exec t fin p bs with
    | ok ar =>
      obtain ⟨a, r⟩ := ar
      rw [hx, Prog.next_ok] at h
      obtain ⟨x, rfl, h1⟩ := (hp fin bs a r).mp hx
      obtain ⟨y, rfl, h2⟩ := (hk a fin r w rest).mp h
      exact ⟨x ++ y, by simp, a, x, y, rfl, h1, h2⟩
    | err e => rw [hx] at h; cases h
    | panic q => rw [hx] at h; cases h
  · rintro ⟨u, rfl, a, x, y, rfl, h1, h2⟩
    rw [(hp fin _ a (y ++ rest)).mpr ⟨x, by simp, h1⟩, Prog.next_ok]
    exact (hk a fin _ w rest).mpr ⟨y, rfl, h2⟩

theorem wrap {p : Prog DeErr α} {R : α → List UInt8 → Prop} (hp : Parses t p R) (f : α → β) :
    Parses t (p >>= fun a => pure (f a)) fun w u => ∃ a, w = f a ∧ R a u := by
  refine (hp.bind fun a => ret (f a)).congr fun w u => ?_
  constructor
  · rintro ⟨a, rfl, h⟩; exact ⟨a, u, [], by simp, h, rfl, rfl⟩
  · rintro ⟨a, x, y, rfl, h, rfl, rfl⟩; exact ⟨a, rfl, by simpa using h⟩

theorem read (n : Nat) : Parses t (readBytes n) fun v u => u = v.toList := by
  intro fin bs v rest
  rw [exec_readBytes]
  constructor
  · intro h
    split at h
    · rename_i hle
      simp only [Outcome.ok.injEq, Prod.mk.injEq] at h
      refine ⟨bs.take n, ?_, ?_⟩
      · rw [← h.2, List.take_append_drop]
      · show bs.take n = v.toList
        rw [← h.1, toList_takeVec]
    · cases h
  · rintro ⟨u, rfl, rfl⟩
    rw [dif_pos (by simp)]
    simp only [Outcome.ok.injEq, Prod.mk.injEq]
    refine ⟨?_, by simp⟩
    apply Vector.toList_inj.mp
    rw [toList_takeVec]
    simp

theorem number {p : Prog DeErr α} (w : Nat) (hw : w = 16 ∨ w = 32 ∨ w = 64) (conv : Nat → α)
    (back : α → Nat) (h1 : ∀ n, n < 2 ^ w → back (conv n) = n) (h2 : ∀ a, conv (back a) = a)
    (h : ∀ fin bs, exec t fin p bs = ofDec conv (varintDecode w bs)) :
    Parses t p fun v u => Number w (back v) u := by
  intro fin bs v rest
  rw [h, ← number_decode w hw]
  cases hd : varintDecode w bs with
  | none => simp [ofDec]
  | some nr =>
    obtain ⟨n, r⟩ := nr
    have hn := varintDecode_lt hw hd
    simp only [ofDec, Outcome.ok.injEq, Prod.mk.injEq, Option.some.injEq]
    refine and_congr_left fun _ => ⟨?_, ?_⟩
    · rintro rfl; exact (h1 n hn).symm
    · rintro rfl; exact h2 v

theorem u16 : Parses t (io decodeU16) fun v u => Number 16 v.toNat u :=
  number 16 (by simp) UInt16.ofNat UInt16.toNat
    (fun v hv => by rw [UInt16.toNat_ofNat', Nat.mod_eq_of_lt hv]) (by simp) fun fin bs => exec_u16 t fin bs
theorem u32 : Parses t (io decodeU32) fun v u => Number 32 v.toNat u :=
  number 32 (by simp) UInt32.ofNat UInt32.toNat
    (fun v hv => by rw [UInt32.toNat_ofNat', Nat.mod_eq_of_lt hv]) (by simp) fun fin bs => exec_u32 t fin bs
theorem u64 : Parses t (io decodeU64) fun v u => Number 64 v.toNat u :=
  number 64 (by simp) UInt64.ofNat UInt64.toNat
    (fun v hv => by rw [UInt64.toNat_ofNat', Nat.mod_eq_of_lt hv]) (by simp) fun fin bs => exec_u64 t fin bs

theorem bool : Parses t deBool fun b u => (b = false ∧ u = [0]) ∨ (b = true ∧ u = [1]) := by
  intro fin bs b rest
  cases bs with
  | nil => simp [deBool, Prog.exec_bind, exec_readBytes, Prog.bind_eq]
  | cons x bs =>
    have hx : exec t fin deBool (x :: bs) = match x.toNat with
        | 0 => .ok (false, bs)
        | 1 => .ok (true, bs)
        | _ => .err .read := by
      rw [deBool, Prog.bind_eq, Prog.exec_bind, exec_readBytes, dif_pos (by simp), Prog.next_ok]
      have : (takeVec (x :: bs) (show 1 ≤ (x :: bs).length by simp))[0] = x := by simp [takeVec]
      rw [this]
      by_cases h0 : x.toNat = 0
      · rw [h0]; rfl
      · by_cases h1 : x.toNat = 1
        · rw [h1]; rfl
        · split <;> first | contradiction | (split <;> first | contradiction | rfl)
    rw [hx]
    have h0 : x.toNat = 0 ↔ x = 0 := by rw [← UInt8.toNat_inj]; rfl
    have h1 : x.toNat = 1 ↔ x = 1 := by rw [← UInt8.toNat_inj]; rfl
    split
    · rename_i h
      rw [h0] at h
      subst h
      simp only [Outcome.ok.injEq, Prod.mk.injEq]
      constructor
      · rintro ⟨rfl, rfl⟩; exact ⟨[0], rfl, .inl ⟨rfl, rfl⟩⟩
      · rintro ⟨u, h2, ⟨rfl, rfl⟩ | ⟨rfl, rfl⟩⟩
        · simpa using h2
        · simp at h2
    · rename_i h
      rw [h1] at h
      subst h
      simp only [Outcome.ok.injEq, Prod.mk.injEq]
      constructor
      · rintro ⟨rfl, rfl⟩; exact ⟨[1], rfl, .inr ⟨rfl, rfl⟩⟩
      · rintro ⟨u, h2, ⟨rfl, rfl⟩ | ⟨rfl, rfl⟩⟩
        · simp at h2
        · simpa using h2
    · rename_i n hn0 hn1
      constructor
      · intro h; cases h
      · rintro ⟨u, h2, ⟨rfl, rfl⟩ | ⟨rfl, rfl⟩⟩
        · simp only [List.cons_append, List.nil_append, List.cons.injEq] at h2
          exact (hn0 (h0.mpr h2.1)).elim
        · simp only [List.cons_append, List.nil_append, List.cons.injEq] at h2
          exact (hn1 (h1.mpr h2.1)).elim

theorem sized {p : Prog DeErr α} (f : List UInt8 → Option α) (back : α → List UInt8)
    (hf : ∀ bs a, f bs = some a ↔ back a = bs)
    (h : ∀ fin bs, exec t fin p bs = match varintDecode 64 bs with
      | none => .err .read
      | some (n, body) =>
        if n ≤ body.length then
          match f (body.take n) with
          | some s => .ok (s, body.drop n)
          | none => .err .read
        else .err .read) :
    Parses t p fun v u => Prefixed (back v) u := by
  intro fin bs v rest
  rw [h]
  constructor
  · intro hx
    cases hd : varintDecode 64 bs with
    | none => rw [hd] at hx; cases hx
    | some nb =>
      obtain ⟨n, body⟩ := nb
      rw [hd] at hx
      simp only at hx
      split at hx
      · rename_i hle
        cases hs : f (body.take n) with
        | none => rw [hs] at hx; cases hx
        | some s =>
          rw [hs] at hx
          simp only [Outcome.ok.injEq, Prod.mk.injEq] at hx
          obtain ⟨rfl, rfl⟩ := hx
          obtain ⟨l, rfl, hl⟩ := (number_decode 64 (by simp) _ _ _).mp hd
          have hb := (hf _ _).mp hs
          refine ⟨l ++ body.take n, by simp, l, ?_, by rw [hb]⟩
          rw [hb, List.length_take, Nat.min_eq_left hle]
          exact hl
      · cases hx
  · rintro ⟨u, rfl, l, hl, rfl⟩
    have hd := (number_decode 64 (by simp) (back v).length (l ++ (back v ++ rest)) (back v ++ rest)).mpr
      ⟨l, rfl, hl⟩
    rw [List.append_assoc, hd]
    simp only [List.length_append, Nat.le_add_right, if_true, List.take_left, List.drop_left]
    rw [(hf _ v).mpr rfl]

theorem string (ht : t.ptr = .w64) : Parses t (deString t) fun s u => Prefixed (utf8 s) u := by
  refine sized fromUtf8 utf8 (fun bs s => ⟨utf8_of_fromUtf8, ?_⟩) fun fin bs => ?_
  · rintro rfl
    exact fromUtf8_utf8 s
  · rw [exec_deString ht]
    cases varintDecode 64 bs with
    | none => rfl
    | some nb =>
      simp only
      cases fromUtf8 (nb.2.take nb.1) <;> rfl

theorem byteBuf (ht : t.ptr = .w64) (hm : 4096 ≤ t.memLimit) :
    Parses t (deByteBuf t) fun b u => Prefixed b u := by
  refine sized some id (fun bs s => by simp [eq_comm]) fun fin bs => ?_
  rw [exec_deByteBuf ht hm]
  cases varintDecode 64 bs <;> rfl

theorem times {p : Prog DeErr α} {R : α → List UInt8 → Prop} (hp : Parses t p R) (n : Nat) :
    Parses t (times n p) fun vs u => vs.length = n ∧ Joined R vs u := by
  induction n with
  | zero =>
    refine (ret []).congr fun vs u => ?_
    cases vs <;> simp [Joined]
  | succ n ih =>
    refine (hp.bind fun a => ih.wrap (a :: ·)).congr fun vs u => ?_
    constructor
    · rintro ⟨h1, h2⟩
      cases vs with
      | nil => simp at h1
      | cons a as =>
        obtain ⟨x, y, rfl, h3, h4⟩ := h2
        exact ⟨a, x, y, rfl, h3, as, rfl, by simpa using h1, h4⟩
    · rintro ⟨a, x, y, rfl, h3, as, rfl, h1, h4⟩
      exact ⟨by simp [h1], x, y, rfl, h3, h4⟩

open ZigZag in
theorem i16 : Parses t deI16 fun x u => Number 16 (zigzag x.toInt) u := by
  refine (u16.wrap decodeI16).congr fun x u => ⟨fun h => ⟨encodeI16 x, by simp, ?_⟩, ?_⟩
  · rw [encodeI16_spec]; exact h
  · rintro ⟨a, rfl, h⟩; rw [← encodeI16_spec, encode_decodeI16]; exact h
open ZigZag in
theorem i32 : Parses t deI32 fun x u => Number 32 (zigzag x.toInt) u := by
  refine (u32.wrap decodeI32).congr fun x u => ⟨fun h => ⟨encodeI32 x, by simp, ?_⟩, ?_⟩
  · rw [encodeI32_spec]; exact h
  · rintro ⟨a, rfl, h⟩; rw [← encodeI32_spec, encode_decodeI32]; exact h
open ZigZag in
theorem i64 : Parses t deI64 fun x u => Number 64 (zigzag x.toInt) u := by
  refine (u64.wrap decodeI64).congr fun x u => ⟨fun h => ⟨encodeI64 x, by simp, ?_⟩, ?_⟩
  · rw [encodeI64_spec]; exact h
  · rintro ⟨a, rfl, h⟩; rw [← encodeI64_spec, encode_decodeI64]; exact h

theorem vec1 (v : Vector UInt8 1) : v.toList = [v[0]] := by
  apply List.ext_getElem
  · simp
  · intro i h1 h2
    have : i = 0 := by simp at h2; exact h2
    subst this
    simp

theorem u8 : Parses t deU8 fun x u => u = [x] := by
  refine ((read 1).wrap fun b => b[0]).congr fun x u => ⟨?_, ?_⟩
  · rintro rfl; exact ⟨#v[x], rfl, rfl⟩
  · rintro ⟨a, rfl, rfl⟩; exact vec1 a

theorem i8 : Parses t deI8 fun x u => u = [x.toUInt8] := by
  refine ((read 1).wrap fun b => b[0].toInt8).congr fun x u => ⟨?_, ?_⟩
  · rintro rfl; exact ⟨#v[x.toUInt8], by simp, rfl⟩
  · rintro ⟨a, rfl, rfl⟩; rw [vec1 a]; simp

theorem f32 : Parses t deF32 fun x u => u = leBytes 4 x.toNat := by
  refine ((read 4).wrap fun b => u32le b[0] b[1] b[2] b[3]).congr fun x u => ⟨?_, ?_⟩
  · rintro rfl
    refine ⟨⟨(leBytes 4 x.toNat).toArray, by simp⟩, ?_, by simp⟩
    exact (u32le_leBytes x _ (by simp)).symm
  · rintro ⟨a, rfl, rfl⟩
    have h := leBytes_leValue a.toList
    rw [leValue_vec4, Vector.length_toList] at h
    rw [u32le_toNat]
    conv => lhs; rw [← h]

theorem f64 : Parses t deF64 fun x u => u = leBytes 8 x.toNat := by
  refine ((read 8).wrap fun b => u64le b[0] b[1] b[2] b[3] b[4] b[5] b[6] b[7]).congr
    fun x u => ⟨?_, ?_⟩
  · rintro rfl
    refine ⟨⟨(leBytes 8 x.toNat).toArray, by simp⟩, ?_, by simp⟩
    exact (u64le_leBytes x _ (by simp)).symm
  · rintro ⟨a, rfl, rfl⟩
    have h := leBytes_leValue a.toList
    rw [leValue_vec8, Vector.length_toList] at h
    rw [u64le_toNat]
    conv => lhs; rw [← h]

theorem char (ht : t.ptr = .w64) :
    Parses t (deChar t) fun c u => ∃ cs, Prefixed (utf8 (String.ofList (c :: cs))) u := by
  refine ((string ht).bind (S := fun s c u => u = [] ∧ ∃ cs, s.toList = c :: cs) fun s => ?_).congr
    fun c u => ⟨?_, ?_⟩
  · cases hs : s.toList with
    | nil =>
      refine (never ?_).congr fun v u => by simp
      intro fin bs v rest h
      cases h
    | cons c cs =>
      refine (ret c).congr fun v u => ?_
      simp [and_comm, eq_comm]
  · rintro ⟨cs, h⟩
    exact ⟨_, u, [], by simp, h, rfl, cs, by simp⟩
  · rintro ⟨s, x, y, rfl, h, rfl, cs, hs⟩
    refine ⟨cs, ?_⟩
    rw [← hs, String.ofList_toList]
    simpa using h

theorem option {p : Prog DeErr Val} {R : Val → List UInt8 → Prop} (hp : Parses t p R) :
    Parses t (do if ← deBool then pure (Val.some (← p)) else pure Val.none) fun v bs =>
      (v = .none ∧ bs = [0]) ∨ ∃ w u, v = .some w ∧ bs = 1 :: u ∧ R w u := by
  refine (bool.bind (S := fun b v u => if b then ∃ w, v = .some w ∧ R w u else v = .none ∧ u = [])
    fun b => ?_).congr fun v u => ⟨?_, ?_⟩
  · cases b
    · exact (ret Val.none).congr fun v u => by simp
    · exact (hp.wrap Val.some).congr fun v u => by simp
  · rintro (⟨rfl, rfl⟩ | ⟨w, x, rfl, rfl, h⟩)
    · exact ⟨false, [0], [], rfl, .inl ⟨rfl, rfl⟩, by simp⟩
    · exact ⟨true, [1], x, rfl, .inr ⟨rfl, rfl⟩, by simpa using h⟩
  · rintro ⟨b, x, y, rfl, ⟨rfl, rfl⟩ | ⟨rfl, rfl⟩, h⟩
    · simp only [Bool.false_eq_true, if_false] at h
      obtain ⟨rfl, rfl⟩ := h
      exact .inl ⟨rfl, rfl⟩
    · simp only [if_true] at h
      obtain ⟨w, rfl, h⟩ := h
      exact .inr ⟨w, y, rfl, rfl, h⟩

theorem counted {p : Prog DeErr α} {R : α → List UInt8 → Prop} (ht : t.ptr = .w64)
    (hp : Parses t p R) (f : List α → Val) :
    Parses t (do
      let count ← io decodeU64
      let vs ← De.times (t.asUsize count) p
      pure (f vs)) fun v bs => ∃ vs l u, v = f vs ∧ bs = l ++ u ∧ Number 64 vs.length l ∧ Joined R vs u := by
  refine (u64.bind fun c => ((hp.times (t.asUsize c)).wrap f)).congr fun v u => ⟨?_, ?_⟩
  · rintro ⟨vs, l, w, rfl, rfl, h1, h2⟩
    have hlt : vs.length < 2 ^ 64 := varintDecode_lt (by simp) ((number_iff 64 (by simp) _ _).mp h1)
    have hc : (UInt64.ofNat vs.length).toNat = vs.length := by
      rw [UInt64.toNat_ofNat', Nat.mod_eq_of_lt hlt]
    refine ⟨UInt64.ofNat vs.length, l, w, rfl, by rw [hc]; exact h1, vs, rfl, ?_, h2⟩
    rw [asUsize_w64 ht, hc]
  · rintro ⟨c, l, w, rfl, h1, vs, rfl, h3, h2⟩
    rw [asUsize_w64 ht] at h3
    exact ⟨vs, l, w, rfl, rfl, by rw [h3]; exact h1, h2⟩

theorem pair {p q : Prog DeErr Val} {R S : Val → List UInt8 → Prop} (hp : Parses t p R)
    (hq : Parses t q S) :
    Parses t (do let k ← p; let v ← q; pure (k, v)) fun (e : Val × Val) x =>
      ∃ a b, x = a ++ b ∧ R e.1 a ∧ S e.2 b := by
  refine (hp.bind fun k => hq.wrap fun v => (k, v)).congr fun e u => ⟨?_, ?_⟩
  · rintro ⟨a, b, rfl, h1, h2⟩; exact ⟨e.1, a, b, rfl, h1, e.2, rfl, h2⟩
  · rintro ⟨k, a, b, rfl, h1, v, rfl, h2⟩; exact ⟨a, b, rfl, h1, h2⟩

end Parses

variable {t : Target}

mutual
theorem parses_de (ht : t.ptr = .w64) (hm : 4096 ≤ t.memLimit) :
    ∀ ty : Ty, Parses t (de t ty) (Denotes ty)
  | .bool => by
    rw [de]
    refine (Parses.bool.wrap Val.bool).congr fun v u => ?_
    rw [Denotes]
    constructor
    · rintro (⟨rfl, rfl⟩ | ⟨rfl, rfl⟩)
      · exact ⟨_, rfl, .inl ⟨rfl, rfl⟩⟩
      · exact ⟨_, rfl, .inr ⟨rfl, rfl⟩⟩
    · rintro ⟨b, rfl, ⟨rfl, rfl⟩ | ⟨rfl, rfl⟩⟩
      · exact .inl ⟨rfl, rfl⟩
      · exact .inr ⟨rfl, rfl⟩
  | .i8 => by rw [de]; exact (Parses.i8.wrap Val.i8).congr fun v u => by rw [Denotes]
  | .i16 => by rw [de]; exact (Parses.i16.wrap Val.i16).congr fun v u => by rw [Denotes]
  | .i32 => by rw [de]; exact (Parses.i32.wrap Val.i32).congr fun v u => by rw [Denotes]
  | .i64 => by rw [de]; exact (Parses.i64.wrap Val.i64).congr fun v u => by rw [Denotes]
  | .u8 => by rw [de]; exact (Parses.u8.wrap Val.u8).congr fun v u => by rw [Denotes]
  | .u16 => by rw [de]; exact (Parses.u16.wrap Val.u16).congr fun v u => by rw [Denotes]
  | .u32 => by rw [de]; exact (Parses.u32.wrap Val.u32).congr fun v u => by rw [Denotes]
  | .u64 => by rw [de]; exact (Parses.u64.wrap Val.u64).congr fun v u => by rw [Denotes]
  | .f32 => by rw [de]; exact (Parses.f32.wrap Val.f32).congr fun v u => by rw [Denotes]
  | .f64 => by rw [de]; exact (Parses.f64.wrap Val.f64).congr fun v u => by rw [Denotes]
  | .char => by
    rw [de]
    exact ((Parses.char ht).wrap Val.char).congr fun v u => by
      rw [Denotes]; simp only [exists_and_left]
  | .string => by rw [de]; exact ((Parses.string ht).wrap Val.str).congr fun v u => by rw [Denotes]
  | .byteBuf => by
    rw [de]; exact ((Parses.byteBuf ht hm).wrap Val.bytes).congr fun v u => by rw [Denotes]
  | .i128 => by
    rw [de]; exact (Parses.never (by intro _ _ _ _ h; cases h)).congr fun v u => by rw [Denotes]
  | .u128 => by
    rw [de]; exact (Parses.never (by intro _ _ _ _ h; cases h)).congr fun v u => by rw [Denotes]
  | .any => by
    rw [de]; exact (Parses.never (by intro _ _ _ _ h; cases h)).congr fun v u => by rw [Denotes]
  | .str => by
    rw [de]; exact (Parses.never (by intro _ _ _ _ h; cases h)).congr fun v u => by rw [Denotes]
  | .bytes => by
    rw [de]; exact (Parses.never (by intro _ _ _ _ h; cases h)).congr fun v u => by rw [Denotes]
  | .ignoredAny => by
    rw [de]; exact (Parses.never (by intro _ _ _ _ h; cases h)).congr fun v u => by rw [Denotes]
  | .option ty => by
    rw [de]; exact (Parses.option (parses_de ht hm ty)).congr fun v u => by rw [Denotes]
  | .unit => by rw [de]; exact (Parses.ret Val.unit).congr fun v u => by rw [Denotes]
  | .unitStruct name => by
    rw [de]; exact (Parses.ret (Val.unitStruct name)).congr fun v u => by rw [Denotes]
  | .newtypeStruct name ty => by
    rw [de]
    exact ((parses_de ht hm ty).wrap (Val.newtypeStruct name)).congr fun v u => by rw [Denotes]
  | .seq ty => by
    rw [de]
    exact (Parses.counted ht (parses_de ht hm ty) fun vs => Val.seq (some vs.length) vs).congr
      fun v u => by rw [Denotes]
  | .tuple ts => by
    rw [de]; exact ((parses_deAll ht hm ts).wrap Val.tuple).congr fun v u => by rw [Denotes]
  | .tupleStruct name ts => by
    rw [de]
    exact ((parses_deAll ht hm ts).wrap (Val.tupleStruct name)).congr fun v u => by rw [Denotes]
  | .map kt vt => by
    rw [de]
    exact (Parses.counted ht (Parses.pair (parses_de ht hm kt) (parses_de ht hm vt))
      fun es => Val.map (some es.length) es).congr fun v u => by rw [Denotes]
  | .struct name fs => by
    rw [de]
    exact ((parses_deFields ht hm fs).wrap (Val.struct name)).congr fun v u => by rw [Denotes]
  | .enum name vs => by
    rw [de]
    refine (Parses.u16.bind fun i => parses_deVariant ht hm name i i.toNat vs).congr fun v u => ?_
    rw [Denotes]
    constructor
    · rintro ⟨i, l, w, rfl, h1, h2⟩
      have hlt : i < 2 ^ 16 := varintDecode_lt (by simp) ((number_iff 16 (by simp) _ _).mp h1)
      have hc : (UInt16.ofNat i).toNat = i := by rw [UInt16.toNat_ofNat', Nat.mod_eq_of_lt hlt]
      exact ⟨UInt16.ofNat i, l, w, rfl, by rw [hc]; exact h1, by rw [hc]; exact h2⟩
    · rintro ⟨i, l, w, rfl, h1, h2⟩
      exact ⟨i.toNat, l, w, rfl, h1, h2⟩
theorem parses_deAll (ht : t.ptr = .w64) (hm : 4096 ≤ t.memLimit) :
    ∀ ts : List Ty, Parses t (deAll t ts) (DenotesAll ts)
  | [] => by rw [deAll]; exact (Parses.ret []).congr fun v u => by rw [DenotesAll]
  | ty :: ts => by
    rw [deAll]
    refine ((parses_de ht hm ty).bind fun w => (parses_deAll ht hm ts).wrap (w :: ·)).congr
      fun v u => ?_
    rw [DenotesAll]
    constructor
    · rintro ⟨w, ws, x, y, rfl, rfl, h1, h2⟩; exact ⟨w, x, y, rfl, h1, ws, rfl, h2⟩
    · rintro ⟨w, x, y, rfl, h1, ws, rfl, h2⟩; exact ⟨w, ws, x, y, rfl, rfl, h1, h2⟩
theorem parses_deFields (ht : t.ptr = .w64) (hm : 4096 ≤ t.memLimit) :
    ∀ fs : List (String × Ty), Parses t (deFields t fs) (DenotesFields fs)
  | [] => by rw [deFields]; exact (Parses.ret []).congr fun v u => by rw [DenotesFields]
  | (n, ty) :: ts => by
    rw [deFields]
    refine ((parses_de ht hm ty).bind fun w => (parses_deFields ht hm ts).wrap ((n, w) :: ·)).congr
      fun v u => ?_
    rw [DenotesFields]
    constructor
    · rintro ⟨w, ws, x, y, rfl, rfl, h1, h2⟩; exact ⟨w, x, y, rfl, h1, ws, rfl, h2⟩
    · rintro ⟨w, x, y, rfl, h1, ws, rfl, h2⟩; exact ⟨w, ws, x, y, rfl, rfl, h1, h2⟩
theorem parses_deVariant (ht : t.ptr = .w64) (hm : 4096 ≤ t.memLimit) (name : String) (i : UInt16) :
    ∀ (n : Nat) (vs : List (String × VTy)),
      Parses t (deVariant t name i n vs) (DenotesVariant name i.toNat n vs)
  | _, [] => by
    rw [deVariant]
    exact (Parses.never (by intro _ _ _ _ h; cases h)).congr fun v u => by rw [DenotesVariant]
  | n + 1, _ :: vs => by
    rw [deVariant]
    exact (parses_deVariant ht hm name i n vs).congr fun v u => by rw [DenotesVariant]
  | 0, (vn, vt) :: _ => by
    rw [deVariant]
    exact (parses_dePayload ht hm name i.toUInt32 vn vt).congr fun v u => by
      rw [DenotesVariant]
      have : UInt32.ofNat i.toNat = i.toUInt32 := by
        rw [← UInt32.toNat_inj]; simp
      rw [this]
theorem parses_dePayload (ht : t.ptr = .w64) (hm : 4096 ≤ t.memLimit) (name : String) (i : UInt32)
    (vn : String) : ∀ vt : VTy, Parses t (dePayload t name i vn vt) (DenotesPayload name i vn vt)
  | .unit => by
    rw [dePayload]
    exact (Parses.ret (Val.unitVariant name i vn)).congr fun v u => by rw [DenotesPayload]
  | .newtype ty => by
    rw [dePayload]
    exact ((parses_de ht hm ty).wrap (Val.newtypeVariant name i vn)).congr fun v u => by
      rw [DenotesPayload]
  | .tuple ts => by
    rw [dePayload]
    exact ((parses_deAll ht hm ts).wrap (Val.tupleVariant name i vn)).congr fun v u => by
      rw [DenotesPayload]
  | .struct fs => by
    rw [dePayload]
    exact ((parses_deFields ht hm fs).wrap (Val.structVariant name i vn)).congr fun v u => by
      rw [DenotesPayload]
end

end De
end Dlhn
