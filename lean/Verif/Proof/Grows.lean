import Verif.Spec.Grows
import Verif.Proof.DeriveRead
import Verif.Proof.Body
import Verif.Proof.HumanReadable
/-!
# Lemmas on changes of headers that keep data readable
-/
namespace Dlhn.Spec

open Derive (Spells SpellsAll SpellsEntries BodyOk)

/-- Lists that are related element by element, from the elements. -/
theorem exists_pointwise {α β : Type} {R : α → β → Prop} : (as : List α) →
    (∀ a ∈ as, ∃ b, R a b) → ∃ bs : List β, as.length = bs.length ∧
      ∀ (i : Nat) a b, as[i]? = some a → bs[i]? = some b → R a b
  | [], _ => ⟨[], rfl, by simp⟩
  | a :: as, h => by
    obtain ⟨b, hb⟩ := h a (by simp)
    obtain ⟨bs, h1, h2⟩ := exists_pointwise as fun x hx => h x (by simp [hx])
    refine ⟨b :: bs, by simp [h1], ?_⟩
    intro i x y hx hy
    cases i with
    | zero => simp at hx hy; subst hx hy; exact hb
    | succ i => exact h2 i x y (by simpa using hx) (by simpa using hy)

theorem mem_pointwise {α β : Type} {as : List α} {bs : List β} (hl : as.length = bs.length)
    {b : β} (hb : b ∈ bs) : ∃ (i : Nat) (a : α), as[i]? = some a ∧ bs[i]? = some b ∧ a ∈ as := by
  obtain ⟨i, hi⟩ := List.getElem?_of_mem hb
  have hlt := (List.getElem?_eq_some_iff.mp hi).1
  have ha : as[i]? = some (as[i]'(by omega)) := List.getElem?_eq_getElem (by omega)
  exact ⟨i, _, ha, hi, List.getElem_mem _⟩

theorem all_uint8 : (bs : List Body) → (∀ b ∈ bs, Conforms .uint8 b) →
    ∃ cs : List UInt8, bs = cs.map .uint8
  | [], _ => ⟨[], rfl⟩
  | b :: bs, hb => by
    obtain ⟨cs, rfl⟩ := all_uint8 bs fun x hx => hb x (by simp [hx])
    cases hb b (by simp) with
    | uint8 v => exact ⟨v :: cs, rfl⟩

/-- Every value of the old header has its counterpart under the new one. -/
theorem all_boolean : (bs : List Body) → (∀ b ∈ bs, Conforms .boolean b) →
    ∃ vs : List Bool, bs = vs.map .boolean
  | [], _ => ⟨[], rfl⟩
  | b :: bs, h => by
    obtain ⟨cs, rfl⟩ := all_boolean bs fun b hb => h b (List.mem_cons_of_mem _ hb)
    have := h b List.mem_cons_self
    cases this with
    | boolean v => exact ⟨v :: cs, rfl⟩

theorem flags_text : (vs : List Bool) → ∃ s, utf8 s = vs.map fun v => if v then 1 else 0
  | [] => ⟨"", rfl⟩
  | v :: vs => by
    obtain ⟨s, hs⟩ := flags_text vs
    exact ⟨(if v then "\x01" else "\x00") ++ s, by
      rw [utf8_append, hs]
      cases v <;> rfl⟩

theorem Grows.retold {a b : Header} (h : Grows a b) :
    ∀ x, Conforms a x → ∃ y, Conforms b y ∧ Retold x y := by
  induction h with
  | same h => exact fun x hx => ⟨x, hx, .same x⟩
  | trans _ _ ih1 ih2 =>
    intro x hx
    obtain ⟨y, hy, h1⟩ := ih1 x hx
    obtain ⟨z, hz, h2⟩ := ih2 y hy
    exact ⟨z, hz, .trans h1 h2⟩
  | optional _ ih =>
    intro x hx
    cases hx with
    | none => exact ⟨.none, .none _, .same _⟩
    | some _ b hb =>
      obtain ⟨y, hy, h1⟩ := ih b hb
      exact ⟨.some y, .some _ _ hy, .some h1⟩
  | array _ ih =>
    intro x hx
    cases hx with
    | array _ bs hb =>
      obtain ⟨ys, h1, h2⟩ := exists_pointwise bs fun x hx => ih x (hb x hx)
      refine ⟨.array ys, .array _ _ fun y hy => ?_, .array h1 fun i a b ha hb => (h2 i a b ha hb).2⟩
      obtain ⟨i, a, h3, h4, -⟩ := mem_pointwise h1 hy
      exact (h2 i a y h3 h4).1
  | map _ ih =>
    intro x hx
    cases hx with
    | map _ es he =>
      obtain ⟨ys, h1, h2⟩ := exists_pointwise (R := fun (e f : String × Body) =>
        e.1 = f.1 ∧ Conforms _ f.2 ∧ Retold e.2 f.2) es fun e hm => by
          obtain ⟨y, h3, h4⟩ := ih e.2 (he e hm)
          exact ⟨(e.1, y), rfl, h3, h4⟩
      refine ⟨.map ys, .map _ _ fun y hy => ?_,
        .map ?_ fun i a b ha hb => (h2 i a b ha hb).2.2⟩
      · obtain ⟨i, a, h3, h4, -⟩ := mem_pointwise h1 hy
        exact (h2 i a y h3 h4).2.1
      · refine List.ext_getElem (by simp [h1]) fun i h3 h4 => ?_
        simp only [List.length_map] at h3 h4
        rw [List.getElem_map, List.getElem_map]
        exact (h2 i _ _ (List.getElem?_eq_getElem h3) (List.getElem?_eq_getElem h4)).1
  | @tuple as bs hl _ ih =>
    intro x hx
    cases hx with
    | tuple _ xs hlx hx =>
      have hex : ∀ p ∈ xs.zip bs, ∃ y, Conforms p.2 y ∧ Retold p.1 y := by
        intro p hp
        obtain ⟨i, hi⟩ := List.getElem?_of_mem hp
        obtain ⟨h1, h2⟩ := List.getElem?_zip_eq_some.mp hi
        have hlt := (List.getElem?_eq_some_iff.mp h2).1
        have ha : as[i]? = some (as[i]'(by omega)) := List.getElem?_eq_getElem (by omega)
        exact ih i _ _ ha h2 _ (hx i _ _ ha h1)
      obtain ⟨ys, h1, h2⟩ := exists_pointwise _ hex
      rw [List.length_zip] at h1
      have h3 : ∀ (i : Nat) b y, bs[i]? = some b → ys[i]? = some y → ∃ x, xs[i]? = some x ∧
          Conforms b y ∧ Retold x y := by
        intro i b y hb hy
        have hlt := (List.getElem?_eq_some_iff.mp hb).1
        have hxi : xs[i]? = some (xs[i]'(by omega)) := List.getElem?_eq_getElem (by omega)
        exact ⟨_, hxi, h2 i (_, b) y (List.getElem?_zip_eq_some.mpr ⟨hxi, hb⟩) hy⟩
      refine ⟨.tuple ys, .tuple _ _ (by omega) fun i b y hb hy => ?_, .tuple (by omega) fun i x y hx hy => ?_⟩
      · obtain ⟨_, _, h, _⟩ := h3 i b y hb hy
        exact h
      · have hlt := (List.getElem?_eq_some_iff.mp hx).1
        obtain ⟨x', h4, _, h5⟩ := h3 i _ y (List.getElem?_eq_getElem (show i < bs.length by omega)) hy
        rw [hx] at h4
        cases h4
        exact h5
  | @enum as bs hl _ ih =>
    intro x hx
    cases hx with
    | enum _ i h b hi hb =>
      have hlt := (List.getElem?_eq_some_iff.mp hi).1
      have hbi : bs[i.toNat]? = some (bs[i.toNat]'(by omega)) := List.getElem?_eq_getElem (by omega)
      obtain ⟨y, hy, h1⟩ := ih i.toNat _ _ hi hbi b hb
      exact ⟨.enum i y, .enum _ i _ y hbi hy, .enum i h1⟩
  | boolean => intro x hx; cases hx with | boolean v => exact ⟨_, .uint8 _, .boolean v⟩
  | string => intro x hx; cases hx with | string v => exact ⟨_, .binary _, .string v⟩
  | binary =>
    intro x hx
    cases hx with
    | binary v =>
      refine ⟨_, .array _ _ fun b hb => ?_, .binary v⟩
      obtain ⟨c, -, rfl⟩ := List.mem_map.mp hb
      exact .uint8 c
  | bytes =>
    intro x hx
    cases hx with
    | array _ bs hb =>
      obtain ⟨cs, rfl⟩ : ∃ cs : List UInt8, bs = cs.map .uint8 := by
        exact all_uint8 bs hb
      exact ⟨_, .binary cs, .bytes cs⟩
  | bits =>
    intro x hx
    cases hx with
    | array _ bs hb =>
      obtain ⟨vs, rfl⟩ := all_boolean bs hb
      obtain ⟨s, hs⟩ := flags_text vs
      exact ⟨_, .string s, .bits vs s hs⟩
  | unit =>
    intro x hx
    cases hx
    exact ⟨_, .tuple [] [] rfl (by simp), .unit⟩
  | empty =>
    intro x hx
    cases hx with
    | tuple _ bs hl _ =>
      obtain rfl : bs = [] := by simpa using hl.symm
      exact ⟨_, .unit, .empty⟩

theorem spellsAll_pointwise : {as bs : List Body} → as.length = bs.length →
    (∀ (i : Nat) a b, as[i]? = some a → bs[i]? = some b → ∀ w, Spells a w → Spells b w) →
    ∀ w, SpellsAll as w → SpellsAll bs w
  | [], [], _, _, w, hw => hw
  | a :: as, b :: bs, hl, h, w, hw => by
    rw [SpellsAll] at hw ⊢
    obtain ⟨x, y, rfl, h1, h2⟩ := hw
    exact ⟨x, y, rfl, h 0 a b rfl rfl x h1, spellsAll_pointwise (by simpa using hl)
      (fun i a b ha hb => h (i + 1) a b (by simpa using ha) (by simpa using hb)) y h2⟩

theorem spellsEntries_pointwise : {as bs : List (String × Body)} →
    as.map (·.1) = bs.map (·.1) →
    (∀ (i : Nat) a b, as[i]? = some a → bs[i]? = some b → ∀ w, Spells a.2 w → Spells b.2 w) →
    ∀ ks, SpellsEntries as ks → SpellsEntries bs ks
  | [], [], _, _, w, hw => hw
  | (k, a) :: as, (l, b) :: bs, hl, h, w, hw => by
    simp at hl
    obtain ⟨rfl, hl⟩ := hl
    rw [SpellsEntries] at hw ⊢
    obtain ⟨x, y, rfl, h1, h2⟩ := hw
    exact ⟨x, y, rfl, h 0 (k, a) (k, b) rfl rfl x h1, spellsEntries_pointwise hl
      (fun i a b ha hb => h (i + 1) a b (by simpa using ha) (by simpa using hb)) y h2⟩

theorem spellsAll_uint8 : (bs w : List UInt8) → SpellsAll (bs.map .uint8) w ↔ w = bs
  | [], w => by simp [SpellsAll]
  | b :: bs, w => by
    rw [List.map_cons, SpellsAll]
    constructor
    · rintro ⟨x, y, rfl, h1, h2⟩
      rw [(spellsAll_uint8 bs y).mp h2, show x = [b] by simpa [Spells, bodyWire] using h1]
      rfl
    · rintro rfl
      exact ⟨[b], bs, rfl, by simp [Spells, bodyWire], (spellsAll_uint8 bs bs).mpr rfl⟩

theorem spellsAll_boolean : (vs : List Bool) → (w : List UInt8) →
    (SpellsAll (vs.map .boolean) w ↔ w = vs.map fun v => if v then 1 else 0)
  | [], w => by simp [SpellsAll]
  | v :: vs, w => by
    rw [List.map_cons, SpellsAll]
    constructor
    · rintro ⟨x, y, rfl, h1, h2⟩
      rw [(spellsAll_boolean vs y).mp h2, show x = [if v then 1 else 0] by simpa [Spells, bodyWire] using h1]
      rfl
    · rintro rfl
      exact ⟨[if v then 1 else 0], _, rfl, by simp [Spells, bodyWire], (spellsAll_boolean vs _).mpr rfl⟩

/-- The counterparts have the same bytes. -/
theorem Retold.spells {a b : Body} (h : Retold a b) : ∀ w, Spells a w → Spells b w := by
  induction h with
  | same b => exact fun w h => h
  | trans _ _ ih1 ih2 => exact fun w h => ih2 w (ih1 w h)
  | some _ ih =>
    intro w hw
    rw [Spells] at hw ⊢
    obtain ⟨x, rfl, h⟩ := hw
    exact ⟨x, rfl, ih x h⟩
  | array hl _ ih =>
    intro w hw
    rw [Spells] at hw ⊢
    obtain ⟨x, rfl, h⟩ := hw
    exact ⟨x, by rw [hl], spellsAll_pointwise hl ih x h⟩
  | map hk _ ih =>
    intro w hw
    rw [Spells] at hw ⊢
    obtain ⟨ks, ks', h1, h2, rfl⟩ := hw
    have hl := congrArg List.length hk
    simp at hl
    exact ⟨ks, ks', spellsEntries_pointwise hk ih ks h1, h2, by rw [hl]⟩
  | tuple hl _ ih =>
    intro w hw
    rw [Spells] at hw ⊢
    exact spellsAll_pointwise hl ih w hw
  | enum i _ ih =>
    intro w hw
    rw [Spells] at hw ⊢
    obtain ⟨x, rfl, h⟩ := hw
    exact ⟨x, rfl, ih x h⟩
  | boolean v => intro w hw; simpa [Spells, bodyWire] using hw
  | string s => intro w hw; simpa [Spells, bodyWire] using hw
  | binary bs =>
    intro w hw
    simp only [Spells, bodyWire, block] at hw ⊢
    exact ⟨bs, by simpa using hw, (spellsAll_uint8 bs bs).mpr rfl⟩
  | bytes bs =>
    intro w hw
    simp only [Spells, bodyWire, block] at hw ⊢
    obtain ⟨x, rfl, h⟩ := hw
    rw [(spellsAll_uint8 bs x).mp h]
    simp
  | bits vs s hs =>
    intro w hw
    simp only [Spells, bodyWire, block] at hw ⊢
    obtain ⟨x, rfl, h⟩ := hw
    rw [hs, (spellsAll_boolean vs x).mp h]
    simp
  | unit => intro w hw; simpa [Spells, SpellsAll, bodyWire] using hw
  | empty => intro w hw; simpa [Spells, SpellsAll, bodyWire] using hw

theorem bodiesWire_pointwise : {as bs : List Body} → as.length = bs.length →
    (∀ (i : Nat) a b, as[i]? = some a → bs[i]? = some b → bodyWire a = bodyWire b) →
    bodiesWire as = bodiesWire bs
  | [], [], _, _ => rfl
  | a :: as, b :: bs, hl, h => by
    rw [bodiesWire, bodiesWire, h 0 a b rfl rfl, bodiesWire_pointwise (by simpa using hl)
      fun i a b ha hb => h (i + 1) a b (by simpa using ha) (by simpa using hb)]

theorem entriesWire_pointwise : {as bs : List (String × Body)} →
    as.map (·.1) = bs.map (·.1) →
    (∀ (i : Nat) a b, as[i]? = some a → bs[i]? = some b → bodyWire a.2 = bodyWire b.2) →
    entriesWire as = entriesWire bs
  | [], [], _, _ => rfl
  | (k, a) :: as, (l, b) :: bs, hl, h => by
    simp at hl
    obtain ⟨rfl, hl⟩ := hl
    rw [entriesWire, entriesWire, h 0 (k, a) (k, b) rfl rfl, entriesWire_pointwise hl
      fun i a b ha hb => h (i + 1) a b (by simpa using ha) (by simpa using hb)]

theorem bodiesWire_uint8 : (bs : List UInt8) → bodiesWire (bs.map .uint8) = bs
  | [] => rfl
  | b :: bs => by rw [List.map_cons, bodiesWire, bodiesWire_uint8 bs, bodyWire]; rfl

/-- The counterparts have the same wire form. -/
theorem bodiesWire_boolean : (vs : List Bool) →
    bodiesWire (vs.map .boolean) = vs.map fun v => if v then 1 else 0
  | [] => rfl
  | v :: vs => by rw [List.map_cons, bodiesWire, bodiesWire_boolean vs, bodyWire]; rfl

theorem Retold.wire {a b : Body} (h : Retold a b) : bodyWire a = bodyWire b := by
  induction h with
  | same b => rfl
  | trans _ _ ih1 ih2 => exact ih1.trans ih2
  | some _ ih => rw [bodyWire, bodyWire, ih]
  | array hl _ ih => rw [bodyWire, bodyWire, hl, bodiesWire_pointwise hl ih]
  | map hk _ ih =>
    have hl := congrArg List.length hk
    simp at hl
    rw [bodyWire, bodyWire, hl, entriesWire_pointwise hk ih]
  | tuple hl _ ih => rw [bodyWire, bodyWire, bodiesWire_pointwise hl ih]
  | enum i _ ih => rw [bodyWire, bodyWire, ih]
  | boolean v => rw [bodyWire, bodyWire]
  | string s => rw [bodyWire, bodyWire]
  | binary bs => rw [bodyWire, bodyWire, block, List.length_map, bodiesWire_uint8]
  | bytes bs => rw [bodyWire, bodyWire, block, List.length_map, bodiesWire_uint8]
  | bits vs s hs => rw [bodyWire, bodyWire, block, List.length_map, bodiesWire_boolean, hs, List.length_map]
  | unit => rw [bodyWire, bodyWire, bodiesWire]
  | empty => rw [bodyWire, bodyWire, bodiesWire]

/-! ## The check -/

theorem isFlag_eq {b : Header} : isFlag b = true ↔ b = .boolean := by
  cases b <;> simp [isFlag]

theorem isByte_eq {b : Header} : isByte b = true ↔ b = .uint8 := by
  cases b <;> simp [isByte]

theorem oneByte_eq {b : Header} : oneByte b = true ↔ b = .uint8 ∨ b = .boolean := by
  cases b <;> simp [oneByte]

theorem grown_uint8 {c : Header} : hasGrown .uint8 c = true ↔ c = .uint8 := by
  cases c <;> simp [hasGrown]

theorem grown_of_uint8 {a : Header} : hasGrown a .uint8 = true ↔ a = .uint8 ∨ a = .boolean := by
  cases a <;> simp [hasGrown]

theorem grown_of_boolean {a : Header} : hasGrown a .boolean = true ↔ a = .boolean := by
  cases a <;> simp [hasGrown]

theorem allGrown_nil {bs : List Header} : allGrown [] bs = true ↔ bs = [] := by
  cases bs <;> simp [allGrown]

theorem allGrown_to_nil {as : List Header} : allGrown as [] = true ↔ as = [] := by
  cases as <;> simp [allGrown]

mutual
theorem hasGrown_refl : (a : Header) → hasGrown a a = true
  | .optional a | .array a | .map a => by rw [hasGrown]; exact hasGrown_refl a
  | .tuple as => by rw [hasGrown]; exact allGrown_refl as
  | .enum as => by rw [hasGrown]; exact variantsGrown_refl as
  | .unit | .boolean | .uint8 | .uint16 | .uint32 | .uint64 | .int8 | .int16 | .int32 | .int64
  | .float32 | .float64 | .bigUInt | .bigInt | .bigDecimal | .string | .binary | .date
  | .dateTime => by rw [hasGrown]
theorem allGrown_refl : (as : List Header) → allGrown as as = true
  | [] => by rw [allGrown]
  | a :: as => by rw [allGrown, hasGrown_refl a, allGrown_refl as]; rfl
theorem variantsGrown_refl : (as : List Header) → variantsGrown as as = true
  | [] => by rw [variantsGrown]
  | a :: as => by rw [variantsGrown, hasGrown_refl a, variantsGrown_refl as]; rfl
end

mutual
theorem hasGrown_trans : (a b c : Header) → hasGrown a b = true → hasGrown b c = true →
    hasGrown a c = true
  | .optional a, b, c, h1, h2 => by
    cases b <;> simp only [hasGrown, Bool.false_eq_true] at h1
    cases c <;> simp only [hasGrown, Bool.false_eq_true] at h2 ⊢
    exact hasGrown_trans a _ _ h1 h2
  | .map a, b, c, h1, h2 => by
    cases b <;> simp only [hasGrown, Bool.false_eq_true] at h1
    cases c <;> simp only [hasGrown, Bool.false_eq_true] at h2 ⊢
    exact hasGrown_trans a _ _ h1 h2
  | .array a, b, c, h1, h2 => by
    cases b <;> simp only [hasGrown, Bool.false_eq_true] at h1
    · obtain rfl := isFlag_eq.mp h1
      cases c <;> simp only [hasGrown, Bool.false_eq_true] at h2 ⊢
      · rfl
      · rfl
      · rw [isByte_eq.mp h2]
        rfl
    · cases c <;> simp only [hasGrown, Bool.false_eq_true] at h2 ⊢
      · exact h1
      · rw [isByte_eq.mp h2]
        exact grown_of_uint8.mpr (oneByte_eq.mp h1)
    · cases c <;> simp only [hasGrown, Bool.false_eq_true] at h2 ⊢
      · obtain rfl := isFlag_eq.mp h2
        exact isFlag_eq.mpr (grown_of_boolean.mp h1)
      · rcases oneByte_eq.mp h2 with rfl | rfl
        · exact oneByte_eq.mpr (grown_of_uint8.mp h1)
        · exact oneByte_eq.mpr (.inr (grown_of_boolean.mp h1))
      · exact hasGrown_trans a _ _ h1 h2
  | .tuple as, b, c, h1, h2 => by
    cases b <;> simp only [hasGrown, Bool.false_eq_true] at h1
    · obtain rfl : as = [] := by simpa using h1
      cases c <;> simp only [hasGrown, Bool.false_eq_true] at h2 ⊢
      · rfl
      · rename_i cs
        obtain rfl : cs = [] := by simpa using h2
        rw [allGrown]
    · cases c <;> simp only [hasGrown, Bool.false_eq_true] at h2 ⊢
      · rename_i bs
        obtain rfl : bs = [] := by simpa using h2
        rw [allGrown_to_nil.mp h1]
        rfl
      · exact allGrown_trans as _ _ h1 h2
  | .enum as, b, c, h1, h2 => by
    cases b <;> simp only [hasGrown, Bool.false_eq_true] at h1
    cases c <;> simp only [hasGrown, Bool.false_eq_true] at h2 ⊢
    exact variantsGrown_trans as _ _ h1 h2
  | .unit, b, c, h1, h2 => by
    cases b <;> simp only [hasGrown, Bool.false_eq_true] at h1
    · exact h2
    · rename_i bs
      obtain rfl : bs = [] := by simpa using h1
      cases c <;> simp only [hasGrown, Bool.false_eq_true] at h2 ⊢
      rw [allGrown_nil.mp h2]
      rfl
  | .boolean, b, c, h1, h2 => by
    cases b <;> simp only [hasGrown, Bool.false_eq_true] at h1
    · exact h2
    · rw [grown_uint8.mp h2]
      rw [hasGrown]
  | .string, b, c, h1, h2 => by
    cases b <;> simp only [hasGrown, Bool.false_eq_true] at h1
    · exact h2
    · cases c <;> simp only [hasGrown, Bool.false_eq_true] at h2 ⊢
      exact h2
    · obtain rfl := isByte_eq.mp h1
      cases c <;> simp only [hasGrown, isFlag, Bool.false_eq_true] at h2 ⊢
      exact isByte_eq.mpr (grown_uint8.mp h2)
  | .binary, b, c, h1, h2 => by
    cases b <;> simp only [hasGrown, Bool.false_eq_true] at h1
    · exact h2
    · obtain rfl := isByte_eq.mp h1
      cases c <;> simp only [hasGrown, isFlag, Bool.false_eq_true] at h2 ⊢
      exact isByte_eq.mpr (grown_uint8.mp h2)
  | .uint8, b, c, h1, h2 | .uint16, b, c, h1, h2 | .uint32, b, c, h1, h2 | .uint64, b, c, h1, h2
  | .int8, b, c, h1, h2 | .int16, b, c, h1, h2 | .int32, b, c, h1, h2 | .int64, b, c, h1, h2
  | .float32, b, c, h1, h2 | .float64, b, c, h1, h2 | .bigUInt, b, c, h1, h2
  | .bigInt, b, c, h1, h2 | .bigDecimal, b, c, h1, h2 | .date, b, c, h1, h2
  | .dateTime, b, c, h1, h2 => by
    cases b <;> simp only [hasGrown, Bool.false_eq_true] at h1
    exact h2
theorem allGrown_trans : (as bs cs : List Header) → allGrown as bs = true →
    allGrown bs cs = true → allGrown as cs = true
  | [], bs, cs, h1, h2 => by rw [allGrown_nil.mp h1] at h2; exact h2
  | a :: as, bs, cs, h1, h2 => by
    cases bs <;> simp only [allGrown, Bool.false_eq_true, Bool.and_eq_true] at h1
    cases cs <;> simp only [allGrown, Bool.false_eq_true, Bool.and_eq_true] at h2 ⊢
    exact ⟨hasGrown_trans a _ _ h1.1 h2.1, allGrown_trans as _ _ h1.2 h2.2⟩
theorem variantsGrown_trans : (as bs cs : List Header) → variantsGrown as bs = true →
    variantsGrown bs cs = true → variantsGrown as cs = true
  | [], bs, cs, h1, h2 => by rw [variantsGrown]
  | a :: as, bs, cs, h1, h2 => by
    cases bs <;> simp only [variantsGrown, Bool.false_eq_true, Bool.and_eq_true] at h1
    cases cs <;> simp only [variantsGrown, Bool.false_eq_true, Bool.and_eq_true] at h2 ⊢
    exact ⟨hasGrown_trans a _ _ h1.1 h2.1, variantsGrown_trans as _ _ h1.2 h2.2⟩
end

theorem allGrown_of : (as bs : List Header) → as.length = bs.length →
    (∀ (i : Nat) a b, as[i]? = some a → bs[i]? = some b → hasGrown a b = true) →
    allGrown as bs = true
  | [], [], _, _ => by rw [allGrown]
  | a :: as, b :: bs, hl, h => by
    rw [allGrown, h 0 a b rfl rfl, allGrown_of as bs (by simpa using hl) fun i x y hx hy =>
      h (i + 1) x y (by simpa using hx) (by simpa using hy)]
    rfl

theorem variantsGrown_of : (as bs : List Header) → as.length ≤ bs.length →
    (∀ (i : Nat) a b, as[i]? = some a → bs[i]? = some b → hasGrown a b = true) →
    variantsGrown as bs = true
  | [], _, _, _ => by rw [variantsGrown]
  | a :: as, b :: bs, hl, h => by
    rw [variantsGrown, h 0 a b rfl rfl, variantsGrown_of as bs (by simpa using hl) fun i x y hx hy =>
      h (i + 1) x y (by simpa using hx) (by simpa using hy)]
    rfl

theorem Grows.check {a b : Header} (h : Grows a b) : hasGrown a b = true := by
  induction h with
  | same a => exact hasGrown_refl a
  | trans _ _ ih1 ih2 => exact hasGrown_trans _ _ _ ih1 ih2
  | optional _ ih | array _ ih | map _ ih => rw [hasGrown]; exact ih
  | tuple hl _ ih => rw [hasGrown]; exact allGrown_of _ _ hl ih
  | enum hl _ ih => rw [hasGrown]; exact variantsGrown_of _ _ hl ih
  | boolean | string | binary | bytes | bits | unit | empty => rfl

mutual
theorem grows_of : (a b : Header) → hasGrown a b = true → Grows a b
  | .optional a, b, h => by
    cases b <;> simp only [hasGrown, Bool.false_eq_true] at h
    exact .optional (grows_of a _ h)
  | .map a, b, h => by
    cases b <;> simp only [hasGrown, Bool.false_eq_true] at h
    exact .map (grows_of a _ h)
  | .array a, b, h => by
    cases b <;> simp only [hasGrown, Bool.false_eq_true] at h
    · rw [isFlag_eq.mp h]
      exact .bits
    · rcases oneByte_eq.mp h with rfl | rfl
      · exact .bytes
      · exact .trans (.array .boolean) .bytes
    · exact .array (grows_of a _ h)
  | .tuple as, b, h => by
    cases b <;> simp only [hasGrown, Bool.false_eq_true] at h
    · obtain rfl : as = [] := by simpa using h
      exact .empty
    · obtain ⟨h1, h2⟩ := allGrows_of as _ h
      exact .tuple h1 h2
  | .enum as, b, h => by
    cases b <;> simp only [hasGrown, Bool.false_eq_true] at h
    obtain ⟨h1, h2⟩ := variantsGrow_of as _ h
    exact .enum h1 h2
  | .unit, b, h => by
    cases b <;> simp only [hasGrown, Bool.false_eq_true] at h
    · exact .same _
    · rename_i bs
      obtain rfl : bs = [] := by simpa using h
      exact .unit
  | .boolean, b, h => by
    cases b <;> simp only [hasGrown, Bool.false_eq_true] at h
    · exact .same _
    · exact .boolean
  | .string, b, h => by
    cases b <;> simp only [hasGrown, Bool.false_eq_true] at h
    · exact .same _
    · exact .string
    · rw [isByte_eq.mp h]
      exact .trans .string .binary
  | .binary, b, h => by
    cases b <;> simp only [hasGrown, Bool.false_eq_true] at h
    · exact .same _
    · rw [isByte_eq.mp h]
      exact .binary
  | .uint8, b, h | .uint16, b, h | .uint32, b, h | .uint64, b, h | .int8, b, h | .int16, b, h
  | .int32, b, h | .int64, b, h | .float32, b, h | .float64, b, h | .bigUInt, b, h
  | .bigInt, b, h | .bigDecimal, b, h | .date, b, h | .dateTime, b, h => by
    cases b <;> simp only [hasGrown, Bool.false_eq_true] at h
    exact .same _
theorem allGrows_of : (as bs : List Header) → allGrown as bs = true → as.length = bs.length ∧
    ∀ (i : Nat) a b, as[i]? = some a → bs[i]? = some b → Grows a b
  | [], bs, h => by
    rw [allGrown_nil.mp h]
    simp
  | a :: as, bs, h => by
    cases bs <;> simp only [allGrown, Bool.false_eq_true, Bool.and_eq_true] at h
    obtain ⟨h1, h2⟩ := allGrows_of as _ h.2
    refine ⟨by simp [h1], fun i x y hx hy => ?_⟩
    cases i with
    | zero => simp at hx hy; subst hx hy; exact grows_of a _ h.1
    | succ i => exact h2 i x y (by simpa using hx) (by simpa using hy)
theorem variantsGrow_of : (as bs : List Header) → variantsGrown as bs = true →
    as.length ≤ bs.length ∧ ∀ (i : Nat) a b, as[i]? = some a → bs[i]? = some b → Grows a b
  | [], bs, h => by simp
  | a :: as, bs, h => by
    cases bs <;> simp only [variantsGrown, Bool.false_eq_true, Bool.and_eq_true] at h
    obtain ⟨h1, h2⟩ := variantsGrow_of as _ h.2
    refine ⟨by simp [h1], fun i x y hx hy => ?_⟩
    cases i with
    | zero => simp at hx hy; subst hx hy; exact grows_of a _ h.1
    | succ i => exact h2 i x y (by simpa using hx) (by simpa using hy)
end

variable {t : Target} {mode : BuildMode} {N D : Prop}

/-- The counterparts exist if the values do. -/
theorem Retold.ok {a b : Body} (h : Retold a b) : BodyOk t mode N D a → BodyOk t mode N D b := by
  induction h with
  | same b => exact fun h => h
  | trans _ _ ih1 ih2 => exact fun h => ih2 (ih1 h)
  | some _ ih => exact fun h => Derive.good_some (ih (h.mono (by simp [parts]; exact fun x h => .inr h)))
  | @array as bs hl _ ih =>
    intro h
    have h1 := (h.exist _ (Body.self_mem_parts _)).1
    refine Derive.good_array (by rw [← hl]; exact h1) fun b hb => ?_
    obtain ⟨i, a, h2, h3, h4⟩ := mem_pointwise hl hb
    exact ih i a b h2 h3 (h.mono fun x hx => by
      rw [parts, List.mem_cons, Body.mem_partsAll]; exact .inr ⟨a, h4, hx⟩)
  | @map as bs hk _ ih =>
    intro h
    have hl := congrArg List.length hk
    simp at hl
    obtain ⟨⟨h1, h1'⟩, h2⟩ := h.exist _ (Body.self_mem_parts _)
    have hkey : ∀ (i : Nat) a b, as[i]? = Option.some a → bs[i]? = Option.some b → a.1 = b.1 := by
      intro i a b ha hb
      have := congrArg (fun l => l[i]?) hk
      simpa [ha, hb] using this
    refine Derive.good_map (by rw [← hl]; exact h1) (fun e he => ?_) ?_ fun b hb => ?_
    · obtain ⟨i, a, h3, h4, h5⟩ := mem_pointwise hl he
      rw [← hkey i a e h3 h4]
      exact h1' a h5
    · have h3 := h2 as rfl
      have e1 : ∀ l : List (String × Body), Ascending l ↔ (l.map (·.1)).Pairwise fun x y => utf8 x < utf8 y := by
        intro l
        rw [Ascending, List.pairwise_map]
      rw [e1] at h3 ⊢
      rw [← hk]
      exact h3
    · obtain ⟨i, a, h3, h4, h5⟩ := mem_pointwise hl hb
      exact ih i a b h3 h4 (h.mono fun x hx => by
        rw [parts, List.mem_cons, Body.mem_partsEntries]; exact .inr ⟨a, h5, hx⟩)
  | @tuple as bs hl _ ih =>
    intro h
    refine Derive.good_tuple fun b hb => ?_
    obtain ⟨i, a, h2, h3, h4⟩ := mem_pointwise hl hb
    exact ih i a b h2 h3 (h.mono fun x hx => by
      rw [parts, List.mem_cons, Body.mem_partsAll]; exact .inr ⟨a, h4, hx⟩)
  | enum i _ ih => exact fun h => Derive.good_enum (ih (h.mono (by simp [parts]; exact fun x h => .inr h)))
  | boolean v =>
    exact fun _ => BodyOk.of_parts (by simp [parts]) trivial (by simp) (by simp) (by simp)
      (by simp) (by simp) (by simp)
  | string s =>
    exact fun h => BodyOk.of_parts (by simp [parts])
      (h.exist _ (Body.self_mem_parts _)).1 (by simp) (by simp) (by simp) (by simp) (by simp) (by simp)
  | binary bs =>
    intro h
    refine Derive.good_array (by simpa [LengthsFit] using (h.exist _ (Body.self_mem_parts _)).1) fun b hb => ?_
    obtain ⟨c, -, rfl⟩ := List.mem_map.mp hb
    exact BodyOk.of_parts (by simp [parts]) trivial (by simp) (by simp) (by simp)
      (by simp) (by simp) (by simp)
  | bytes bs =>
    exact fun h => BodyOk.of_parts (by simp [parts])
      (by simpa [LengthsFit] using (h.exist _ (Body.self_mem_parts _)).1)
      (by simp) (by simp) (by simp) (by simp) (by simp) (by simp)
  | bits vs s hs =>
    exact fun h => BodyOk.of_parts (by simp [parts])
      (by simpa [LengthsFit, hs] using (h.exist _ (Body.self_mem_parts _)).1)
      (by simp) (by simp) (by simp) (by simp) (by simp) (by simp)
  | unit => exact fun _ => Derive.good_tuple (by simp)
  | empty => exact fun _ => Derive.good_unit

end Dlhn.Spec
