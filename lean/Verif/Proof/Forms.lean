import Verif.Proof.Grammar
import Verif.Proof.DeHas
import Verif.Proof.VarintSpec
/-! # Forms of the length of the encoding -/
namespace Dlhn.Spec

open PrefixVarint (groups_le_iff groups_pos)

/-- Equal, except that (only if `ok`) the markers 192 and 240 may have become larger. -/
def Near (ok : Prop) : List UInt8 → List UInt8 → Prop
  | [], bs => bs = []
  | _ :: _, [] => False
  | a :: as, b :: bs => (a = b ∨ (ok ∧ ((b = 192 ∧ 192 ≤ a) ∨ (b = 240 ∧ 240 ≤ a)))) ∧ Near ok as bs

namespace Near

variable {ok : Prop}

theorem refl : ∀ bs : List UInt8, Near ok bs bs
  | [] => rfl
  | b :: bs => ⟨.inl rfl, refl bs⟩

theorem append : ∀ {a b c d : List UInt8}, Near ok a b → Near ok c d → Near ok (a ++ c) (b ++ d)
  | [], b, c, d, h1, h2 => by
    cases (show b = [] from h1)
    exact h2
  | _ :: _, [], _, _, h1, _ => h1.elim
  | x :: a, y :: b, c, d, h1, h2 => ⟨h1.1, append h1.2 h2⟩

theorem eq : ∀ {a b : List UInt8}, Near False a b → a = b
  | [], b, h => Eq.symm h
  | _ :: _, [], h => h.elim
  | x :: a, y :: b, h => by
    rcases h.1 with h1 | ⟨h1, _⟩
    · rw [h1, eq h.2]
    · exact h1.elim

theorem blurred : ∀ {a b : List UInt8}, Near True a b → Blurred a b
  | [], b, h => h
  | _ :: _, [], h => h.elim
  | x :: a, y :: b, h => ⟨h.1.imp_right (·.2), blurred h.2⟩

end Near

/-- What the forms of a value have to do with its encoding `w`. -/
def Close (ok : Prop) (w u : List UInt8) : Prop :=
  w.length ≤ u.length ∧ (u.length = w.length → Near ok u w)

namespace Close

variable {ok : Prop}

theorem refl (w : List UInt8) : Close ok w w := ⟨Nat.le_refl _, fun _ => .refl w⟩

theorem append {w1 w2 u1 u2 : List UInt8} (h1 : Close ok w1 u1) (h2 : Close ok w2 u2) :
    Close ok (w1 ++ w2) (u1 ++ u2) := by
  have a := h1.1
  have b := h2.1
  refine ⟨by simp; omega, fun h => ?_⟩
  simp only [List.length_append] at h
  exact (h1.2 (by omega)).append (h2.2 (by omega))

end Close

theorem close_number (ok : Prop) (w : Nat) (hw : w = 16 ∨ w = 32 ∨ w = 64) (n : Nat)
    (hok : ok ∨ w = 64 ∨ groups n ≤ w / 8) (u : List UInt8) (h : Number w n u) :
    Close ok (varint w n) u := by
  have hp := groups_pos n
  rw [Close, length_varint, varintLen]
  rcases h with ⟨k, hk1, hk, hlt, rfl⟩ | ⟨b, hb, hlt, rfl⟩
  · have hg : groups n ≤ k := by
      obtain ⟨j, rfl⟩ : ∃ j, k = j + 1 := ⟨k - 1, by omega⟩
      exact (groups_le_iff j n).mpr hlt
    simp only [List.length_cons, length_leBytes]
    refine ⟨by omega, fun h => ?_⟩
    have : k = groups n := by omega
    subst this
    rw [varint, if_pos hk]
    exact .refl _
  · simp only [List.length_cons, length_leBytes]
    refine ⟨by omega, fun h => ?_⟩
    have : ¬ groups n ≤ w / 8 := by omega
    rw [varint, if_neg this]
    refine ⟨?_, .refl _⟩
    rcases hw with rfl | rfl | rfl
    · refine .inr ⟨?_, .inl ⟨rfl, ?_⟩⟩
      · rcases hok with h | h | h
        · exact h
        · cases h
        · exact absurd h this
      · rw [UInt8.le_iff_toNat_le]; exact hb
    · refine .inr ⟨?_, .inr ⟨rfl, ?_⟩⟩
      · rcases hok with h | h | h
        · exact h
        · cases h
        · exact absurd h this
      · rw [UInt8.le_iff_toNat_le]; exact hb
    · left
      rw [← UInt8.toNat_inj]
      have := b.toNat_lt
      simp at hb ⊢
      omega

theorem length_varint64_mono {a b : Nat} (h : a ≤ b) : (varint 64 a).length ≤ (varint 64 b).length := by
  rw [length_varint, length_varint, varintLen, varintLen]
  have := De.groups_mono h
  omega

theorem close_sized (ok : Prop) (body u : List UInt8) (h : Prefixed body u) : Close ok (block body) u := by
  obtain ⟨l, hl, rfl⟩ := h
  exact (close_number ok 64 (by simp) _ (by simp) l hl).append (.refl body)

theorem utf8_cons (c : Char) (cs : List Char) :
    utf8 (String.ofList (c :: cs)) = utf8 (String.singleton c) ++ utf8 (String.ofList cs) := by
  have : String.ofList (c :: cs) = String.singleton c ++ String.ofList cs := by
    apply String.toList_inj.mp
    simp
  rw [this]
  simp [utf8]

theorem close_char (ok : Prop) (c : Char) (cs : List Char) (u : List UInt8)
    (h : Prefixed (utf8 (String.ofList (c :: cs))) u) :
    Close ok (block (utf8 (String.singleton c))) u := by
  rw [utf8_cons] at h
  have hc := close_sized ok _ u h
  have hl := length_varint64_mono (a := (utf8 (String.singleton c)).length)
    (b := (utf8 (String.singleton c) ++ utf8 (String.ofList cs)).length) (by simp)
  simp only [Close, block, List.length_append] at hc hl ⊢
  refine ⟨by omega, fun he => ?_⟩
  have h0 : utf8 (String.ofList cs) = [] := List.length_eq_zero_iff.mp (by omega)
  rw [h0] at hc
  simp only [List.append_nil, List.length_nil, Nat.add_zero] at hc
  exact hc.2 (by omega)

theorem close_all {α : Type} (ok : Prop) (R : α → List UInt8 → Prop) (enc : α → List UInt8)
    (h : ∀ a u, R a u → Close ok (enc a) u) :
    ∀ (as : List α) (u : List UInt8), Joined R as u → Close ok (as.flatMap enc) u
  | [], u, hu => by
    cases (show u = [] from hu)
    exact .refl _
  | a :: as, u, ⟨x, y, hxy, h1, h2⟩ => by
    subst hxy
    rw [List.flatMap_cons]
    exact (h a x h1).append (close_all ok R enc h as y h2)

theorem wireAll_flatMap : ∀ vs : List Val, wireAll vs = vs.flatMap wire
  | [] => by rw [wireAll]; rfl
  | v :: vs => by rw [wireAll, List.flatMap_cons, wireAll_flatMap vs]

theorem wireEntries_flatMap : ∀ es : List (Val × Val),
    wireEntries es = es.flatMap fun e => wire e.1 ++ wire e.2
  | [] => by rw [wireEntries]; rfl
  | (k, v) :: es => by rw [wireEntries, List.flatMap_cons, wireEntries_flatMap es]

theorem varint_index {i : Nat} (h : i < 16384) : varint 32 i = varint 16 i ∧ groups i ≤ 2 := by
  have hg : groups i ≤ 2 := (groups_le_iff 1 i).mpr (by simpa using h)
  refine ⟨?_, hg⟩
  rw [varint, varint, if_pos (by omega), if_pos (by omega)]

mutual
theorem close_de (ok : Prop) : ∀ (ty : Ty), Supported ty → (ok ∨ NoNarrow ty) →
    ∀ v u, Denotes ty v u → Close ok (wire v) u
  | .bool, _, _, v, u, h => by
    rw [Denotes] at h
    rcases h with ⟨rfl, rfl⟩ | ⟨rfl, rfl⟩ <;> rw [wire] <;> exact .refl _
  | .i8, _, _, v, u, h => by
    rw [Denotes] at h
    obtain ⟨x, rfl, rfl⟩ := h
    rw [wire]; exact .refl _
  | .i16, _, hn, v, u, h => by
    rw [Denotes] at h
    obtain ⟨x, rfl, h⟩ := h
    rw [wire]; exact close_number ok 16 (by simp) _ (.inl (hn.resolve_right (by simp [NoNarrow]))) u h
  | .i32, _, hn, v, u, h => by
    rw [Denotes] at h
    obtain ⟨x, rfl, h⟩ := h
    rw [wire]; exact close_number ok 32 (by simp) _ (.inl (hn.resolve_right (by simp [NoNarrow]))) u h
  | .i64, _, _, v, u, h => by
    rw [Denotes] at h
    obtain ⟨x, rfl, h⟩ := h
    rw [wire]; exact close_number ok 64 (by simp) _ (by simp) u h
  | .u8, _, _, v, u, h => by
    rw [Denotes] at h
    obtain ⟨x, rfl, rfl⟩ := h
    rw [wire]; exact .refl _
  | .u16, _, hn, v, u, h => by
    rw [Denotes] at h
    obtain ⟨x, rfl, h⟩ := h
    rw [wire]; exact close_number ok 16 (by simp) _ (.inl (hn.resolve_right (by simp [NoNarrow]))) u h
  | .u32, _, hn, v, u, h => by
    rw [Denotes] at h
    obtain ⟨x, rfl, h⟩ := h
    rw [wire]; exact close_number ok 32 (by simp) _ (.inl (hn.resolve_right (by simp [NoNarrow]))) u h
  | .u64, _, _, v, u, h => by
    rw [Denotes] at h
    obtain ⟨x, rfl, h⟩ := h
    rw [wire]; exact close_number ok 64 (by simp) _ (by simp) u h
  | .f32, _, _, v, u, h => by
    rw [Denotes] at h
    obtain ⟨x, rfl, rfl⟩ := h
    rw [wire]; exact .refl _
  | .f64, _, _, v, u, h => by
    rw [Denotes] at h
    obtain ⟨x, rfl, rfl⟩ := h
    rw [wire]; exact .refl _
  | .char, _, _, v, u, h => by
    rw [Denotes] at h
    obtain ⟨c, cs, rfl, h⟩ := h
    rw [wire]; exact close_char ok c cs u h
  | .string, _, _, v, u, h => by
    rw [Denotes] at h
    obtain ⟨s, rfl, h⟩ := h
    rw [wire]; exact close_sized ok _ u h
  | .byteBuf, _, _, v, u, h => by
    rw [Denotes] at h
    obtain ⟨s, rfl, h⟩ := h
    rw [wire]; exact close_sized ok _ u h
  | .i128, _, _, v, u, h => by rw [Denotes] at h; exact h.elim
  | .u128, _, _, v, u, h => by rw [Denotes] at h; exact h.elim
  | .any, _, _, v, u, h => by rw [Denotes] at h; exact h.elim
  | .str, _, _, v, u, h => by rw [Denotes] at h; exact h.elim
  | .bytes, _, _, v, u, h => by rw [Denotes] at h; exact h.elim
  | .ignoredAny, _, _, v, u, h => by rw [Denotes] at h; exact h.elim
  | .option ty, hs, hn, v, u, h => by
    rw [Denotes] at h
    rw [Supported] at hs
    rw [NoNarrow] at hn
    rcases h with ⟨rfl, rfl⟩ | ⟨w, x, rfl, rfl, h⟩ <;> rw [wire]
    · exact .refl _
    · exact (Close.refl [1]).append (close_de ok ty hs hn w x h)
  | .unit, _, _, v, u, h => by
    rw [Denotes] at h
    obtain ⟨rfl, rfl⟩ := h
    rw [wire]; exact .refl _
  | .unitStruct _, _, _, v, u, h => by
    rw [Denotes] at h
    obtain ⟨rfl, rfl⟩ := h
    rw [wire]; exact .refl _
  | .newtypeStruct _ ty, hs, hn, v, u, h => by
    rw [Denotes] at h
    rw [Supported] at hs
    rw [NoNarrow] at hn
    obtain ⟨w, rfl, h⟩ := h
    rw [wire]; exact close_de ok ty hs hn w u h
  | .seq ty, hs, hn, v, u, h => by
    rw [Denotes] at h
    rw [Supported] at hs
    rw [NoNarrow] at hn
    obtain ⟨vs, l, x, rfl, rfl, h1, h2⟩ := h
    rw [wire, lengthPrefix, wireAll_flatMap]
    exact (close_number ok 64 (by simp) _ (by simp) l h1).append
      (close_all ok _ _ (close_de ok ty hs hn) vs x h2)
  | .tuple ts, hs, hn, v, u, h => by
    rw [Denotes] at h
    rw [Supported] at hs
    rw [NoNarrow] at hn
    obtain ⟨vs, rfl, h⟩ := h
    rw [wire]; exact close_deAll ok ts hs hn vs u h
  | .tupleStruct _ ts, hs, hn, v, u, h => by
    rw [Denotes] at h
    rw [Supported] at hs
    rw [NoNarrow] at hn
    obtain ⟨vs, rfl, h⟩ := h
    rw [wire]; exact close_deAll ok ts hs hn vs u h
  | .map kt vt, hs, hn, v, u, h => by
    rw [Denotes] at h
    rw [Supported] at hs
    rw [NoNarrow] at hn
    obtain ⟨es, l, x, rfl, rfl, h1, h2⟩ := h
    rw [wire, lengthPrefix, wireEntries_flatMap]
    refine (close_number ok 64 (by simp) _ (by simp) l h1).append
      (close_all ok _ _ (fun e u he => ?_) es x h2)
    obtain ⟨a, b, rfl, ha, hb⟩ := he
    refine Close.append ?_ (close_de ok vt hs.2 (hn.imp_right (·.2)) _ b hb)
    obtain ⟨rfl, _⟩ := hs
    rw [Denotes] at ha
    obtain ⟨s, hsv, ha⟩ := ha
    rw [hsv, wire]; exact close_sized ok _ a ha
  | .struct _ fs, hs, hn, v, u, h => by
    rw [Denotes] at h
    rw [Supported] at hs
    rw [NoNarrow] at hn
    obtain ⟨vs, rfl, h⟩ := h
    rw [wire]; exact close_deFields ok fs hs hn vs u h
  | .enum name vs, hs, hn, v, u, h => by
    rw [Denotes] at h
    rw [Supported] at hs
    rw [NoNarrow] at hn
    obtain ⟨i, l, x, rfl, h1, h2⟩ := h
    obtain ⟨hlt, p, hp, h3⟩ := close_deVariant ok name i i vs hs.2 hn v x h2
    have hi := varint_index (i := i) (by omega)
    have hc : (UInt32.ofNat i).toNat = i := by rw [UInt32.toNat_ofNat', Nat.mod_eq_of_lt (by omega)]
    rw [hp, hc, hi.1]
    exact (close_number ok 16 (by simp) _ (.inr (.inr hi.2)) l h1).append h3
theorem close_deAll (ok : Prop) : ∀ (ts : List Ty), AllSupported ts → (ok ∨ AllNoNarrow ts) →
    ∀ vs u, DenotesAll ts vs u → Close ok (wireAll vs) u
  | [], _, _, vs, u, h => by
    rw [DenotesAll] at h
    obtain ⟨rfl, rfl⟩ := h
    rw [wireAll]; exact .refl _
  | ty :: ts, hs, hn, vs, u, h => by
    rw [DenotesAll] at h
    rw [AllSupported] at hs
    rw [AllNoNarrow] at hn
    obtain ⟨w, ws, x, y, rfl, rfl, h1, h2⟩ := h
    rw [wireAll]
    exact (close_de ok ty hs.1 (hn.imp_right (·.1)) w x h1).append
      (close_deAll ok ts hs.2 (hn.imp_right (·.2)) ws y h2)
theorem close_deFields (ok : Prop) : ∀ (ts : List (String × Ty)), FieldsSupported ts →
    (ok ∨ FieldsNoNarrow ts) → ∀ vs u, DenotesFields ts vs u → Close ok (wireFields vs) u
  | [], _, _, vs, u, h => by
    rw [DenotesFields] at h
    obtain ⟨rfl, rfl⟩ := h
    rw [wireFields]; exact .refl _
  | (_, ty) :: ts, hs, hn, vs, u, h => by
    rw [DenotesFields] at h
    rw [FieldsSupported] at hs
    rw [FieldsNoNarrow] at hn
    obtain ⟨w, ws, x, y, rfl, rfl, h1, h2⟩ := h
    rw [wireFields]
    exact (close_de ok ty hs.1 (hn.imp_right (·.1)) w x h1).append
      (close_deFields ok ts hs.2 (hn.imp_right (·.2)) ws y h2)
theorem close_deVariant (ok : Prop) (name : String) (i : Nat) :
    ∀ (k : Nat) (vs : List (String × VTy)), VariantsSupported vs → (ok ∨ VariantsNoNarrow vs) →
      ∀ v u, DenotesVariant name i k vs v u →
        k < vs.length ∧ ∃ p, wire v = varint 32 (UInt32.ofNat i).toNat ++ p ∧ Close ok p u
  | _, [], _, _, v, u, h => by rw [DenotesVariant] at h; exact h.elim
  | k + 1, _ :: vs, hs, hn, v, u, h => by
    rw [DenotesVariant] at h
    rw [VariantsSupported] at hs
    rw [VariantsNoNarrow] at hn
    have := close_deVariant ok name i k vs hs.2 (hn.imp_right (·.2)) v u h
    exact ⟨by have := this.1; simp; omega, this.2⟩
  | 0, (vn, vt) :: vs, hs, hn, v, u, h => by
    rw [DenotesVariant] at h
    rw [VariantsSupported] at hs
    rw [VariantsNoNarrow] at hn
    exact ⟨by simp, close_dePayload ok name _ vn vt hs.1 (hn.imp_right (·.1)) v u h⟩
theorem close_dePayload (ok : Prop) (name : String) (i : UInt32) (vn : String) :
    ∀ (vt : VTy), PayloadSupported vt → (ok ∨ PayloadNoNarrow vt) →
      ∀ v u, DenotesPayload name i vn vt v u →
        ∃ p, wire v = varint 32 i.toNat ++ p ∧ Close ok p u
  | .unit, _, _, v, u, h => by
    rw [DenotesPayload] at h
    obtain ⟨rfl, rfl⟩ := h
    exact ⟨[], by rw [wire]; simp, .refl _⟩
  | .newtype ty, hs, hn, v, u, h => by
    rw [DenotesPayload] at h
    rw [PayloadSupported] at hs
    rw [PayloadNoNarrow] at hn
    obtain ⟨w, rfl, h⟩ := h
    exact ⟨_, by rw [wire], close_de ok ty hs hn w u h⟩
  | .tuple ts, hs, hn, v, u, h => by
    rw [DenotesPayload] at h
    rw [PayloadSupported] at hs
    rw [PayloadNoNarrow] at hn
    obtain ⟨w, rfl, h⟩ := h
    exact ⟨_, by rw [wire], close_deAll ok ts hs hn w u h⟩
  | .struct fs, hs, hn, v, u, h => by
    rw [DenotesPayload] at h
    rw [PayloadSupported] at hs
    rw [PayloadNoNarrow] at hn
    obtain ⟨w, rfl, h⟩ := h
    exact ⟨_, by rw [wire], close_deFields ok fs hs hn w u h⟩
end

end Dlhn.Spec
