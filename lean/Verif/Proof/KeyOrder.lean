import Verif.Spec.KeyOrder
import Verif.Proof.Evolve
import Verif.Props.Bounds
/-! # Proofs about the order of bytes -/
namespace Dlhn

open Spec De

/-! ### Lists of bytes -/

/-- Neither is a proper beginning of the other. -/
def Apart (a b : List UInt8) : Prop := ∀ r s, a ++ r = b ++ s → a = b

theorem lt_append {a b : List UInt8} (h : Apart a b) (c d : List UInt8) :
    a ++ c < b ++ d ↔ a < b ∨ a = b ∧ c < d := by
  induction a generalizing b with
  | nil =>
    have := h b [] (by simp)
    subst this
    simp
  | cons x a ih =>
    cases b with
    | nil => exact absurd (h [] (x :: a) (by simp)) (by simp)
    | cons y b =>
      simp only [List.cons_append, List.cons_lt_cons_iff, List.cons.injEq]
      by_cases e : x = y
      · subst e
        have := ih (b := b) fun r s hrs => by
          have := h r s (by rw [List.cons_append, List.cons_append, hrs])
          simpa using this
        simp [this]
      · simp [e]

theorem lt_self (a : List UInt8) : ¬ a < a := List.lt_irrefl a

theorem apart_len {a b : List UInt8} (h : a.length = b.length) : Apart a b :=
  fun _ _ e => (List.append_inj e h).1

/-! ### Small varints -/

theorem groups_two {n : Nat} (h : 128 ≤ n) (h' : n < 16384) : groups n = 2 := by
  rw [groups, if_neg (by omega), groups, if_pos (by omega)]

theorem varint_two (w n : Nat) (hw : 16 ≤ w) (h : 128 ≤ n) (h' : n < 16384) :
    varint w n = [UInt8.ofNat (128 + n % 64), UInt8.ofNat (n / 64)] := by
  have : 2 ≤ w / 8 := by omega
  have e : n / 64 % 256 = n / 64 := Nat.mod_eq_of_lt (by omega)
  simp [varint, groups_two h h', this, leBytes, e]

theorem varint_lt (w : Nat) (hw : 16 ≤ w) {i j : Nat} (hi : i < 192) (hj : j < 192) :
    varint w i < varint w j ↔ i < j := by
  have key : ∀ a b : Nat, a < 256 → b < 256 →
      ((UInt8.ofNat a < UInt8.ofNat b ↔ a < b) ∧ (UInt8.ofNat a = UInt8.ofNat b ↔ a = b)) := by
    intro a b ha hb
    rw [UInt8.lt_iff_toNat_lt, ← UInt8.toNat_inj]
    simp [Nat.mod_eq_of_lt ha, Nat.mod_eq_of_lt hb]
  rcases Nat.lt_or_ge i 128 with h1 | h1 <;> rcases Nat.lt_or_ge j 128 with h2 | h2
  · rw [varint_byte w i hw h1, varint_byte w j hw h2]
    simp [List.cons_lt_cons_iff, (key i j (by omega) (by omega)).1]
  · rw [varint_byte w i hw h1, varint_two w j hw h2 (by omega)]
    rw [List.cons_lt_cons_iff, (key i _ (by omega) (by omega)).1, (key i _ (by omega) (by omega)).2]
    simp; omega
  · rw [varint_two w i hw h1 (by omega), varint_byte w j hw h2]
    rw [List.cons_lt_cons_iff, (key _ j (by omega) (by omega)).1, (key _ j (by omega) (by omega)).2]
    simp; omega
  · rw [varint_two w i hw h1 (by omega), varint_two w j hw h2 (by omega)]
    rw [List.cons_lt_cons_iff, (key _ _ (by omega) (by omega)).1, (key _ _ (by omega) (by omega)).2,
      List.cons_lt_cons_iff, (key _ _ (by omega) (by omega)).1, (key _ _ (by omega) (by omega)).2]
    simp; omega

/-- From 192 on the order of the bytes is another. -/
theorem varint_swapped (w : Nat) (hw : 16 ≤ w) (a b : List UInt8) :
    ¬ varint w 191 ++ a < varint w 192 ++ b := by
  rw [varint_two w 191 hw (by decide) (by decide), varint_two w 192 hw (by decide) (by decide)]
  simp [List.cons_lt_cons_iff]

/-! ### Characters -/

theorem utf8_char (c : Char) : utf8 (String.singleton c) = String.utf8EncodeChar c := by
  have : (String.singleton c).toByteArray = (String.utf8EncodeChar c).toByteArray := by
    rw [String.toByteArray_singleton, List.utf8Encode_singleton]
  rw [utf8, this]
  simp

theorem byte_lt {a b : Nat} (ha : a < 256) (hb : b < 256) :
    UInt8.ofNat a < UInt8.ofNat b ↔ a < b := by
  rw [UInt8.lt_iff_toNat_lt]
  simp [Nat.mod_eq_of_lt ha, Nat.mod_eq_of_lt hb]

theorem byte_eq {a b : Nat} (ha : a < 256) (hb : b < 256) :
    UInt8.ofNat a = UInt8.ofNat b ↔ a = b := by
  rw [← UInt8.toNat_inj]
  simp [Nat.mod_eq_of_lt ha, Nat.mod_eq_of_lt hb]

theorem cons_lt {a b : Nat} (ha : a < 256) (hb : b < 256) (as bs : List UInt8) :
    UInt8.ofNat a :: as < UInt8.ofNat b :: bs ↔ a < b ∨ a = b ∧ as < bs := by
  rw [List.cons_lt_cons_iff, byte_lt ha hb, byte_eq ha hb]

theorem block_short (bs : List UInt8) (h : bs.length < 128) :
    block bs = UInt8.ofNat bs.length :: bs := by
  rw [block, varint_byte 64 _ (by decide) h]
  rfl

theorem char_lt (c d : Char) (h : c.toNat < d.toNat) : wire (.char c) < wire (.char d) := by
  have hc := Ser.length_utf8_singleton c
  have hd := Ser.length_utf8_singleton d
  have hv : d.val.toNat < 1114112 := by
    have := d.valid
    change d.val.toNat < 55296 ∨ 57343 < d.val.toNat ∧ d.val.toNat < 1114112 at this
    omega
  change c.val.toNat < d.val.toNat at h
  rw [wire, wire, block_short _ (by omega), block_short _ (by omega), utf8_char, utf8_char]
  simp only [String.utf8EncodeChar]
  generalize c.val.toNat = v at *
  generalize d.val.toNat = w at *
  have key : ∀ x, x < 1114112 → x = x / 262144 % 8 * 262144 + x / 4096 % 64 * 4096 +
      x / 64 % 64 * 64 + x % 64 ∧ x / 4096 % 64 < 64 ∧ x / 64 % 64 < 64 ∧ x % 64 < 64 := by
    intro x hx
    omega
  obtain ⟨a1, a2, a3, a4⟩ := key v (by omega)
  obtain ⟨b1, b2, b3, b4⟩ := key w hv
  clear hc hd
  repeat' split
  all_goals
    first
    | omega
    | (simp only [List.length_cons, List.length_nil]
       repeat rw [cons_lt (by omega) (by omega)]
       omega)
    | (simp only [List.length_cons, List.length_nil]
       repeat rw [cons_lt (by omega) (by omega)]
       generalize v / 262144 % 8 = v3, v / 4096 % 64 = v2, v / 64 % 64 = v1, v % 64 = v0 at *
       generalize w / 262144 % 8 = w3, w / 4096 % 64 = w2, w / 64 % 64 = w1, w % 64 = w0 at *
       simp only [List.lt_irrefl, and_false, or_false]
       omega)

theorem char_lt_iff (c d : Char) : Less (.char c) (.char d) ↔ wire (.char c) < wire (.char d) := by
  constructor
  · intro h
    cases h with
    | char _ _ h => exact char_lt c d h
    | index _ _ i j h => cases h
  · intro h
    rcases Nat.lt_trichotomy c.toNat d.toNat with hl | hl | hl
    · exact .char _ _ hl
    · have : c = d := Char.toNat_inj.mp hl
      subst this
      exact absurd h (lt_self _)
    · exact absurd (List.lt_trans h (char_lt d c hl)) (lt_self _)

/-! ### Inversion -/

theorem less_some (v w : Val) : Less (.some v) (.some w) ↔ Less v w := by
  refine ⟨fun h => ?_, .some v w⟩
  cases h with
  | some _ _ h => exact h
  | index _ _ _ _ h => cases h

theorem less_newtypeStruct (n : String) (v w : Val) :
    Less (.newtypeStruct n v) (.newtypeStruct n w) ↔ Less v w := by
  refine ⟨fun h => ?_, .newtypeStruct n v w⟩
  cases h with
  | newtypeStruct _ _ _ h => exact h
  | index _ _ _ _ h => cases h

theorem less_tuple (vs ws : List Val) : Less (.tuple vs) (.tuple ws) ↔ LessAll vs ws := by
  refine ⟨fun h => ?_, .tuple vs ws⟩
  cases h with
  | tuple _ _ h => exact h
  | index _ _ _ _ h => cases h

theorem less_tupleStruct (n : String) (vs ws : List Val) :
    Less (.tupleStruct n vs) (.tupleStruct n ws) ↔ LessAll vs ws := by
  refine ⟨fun h => ?_, .tupleStruct n vs ws⟩
  cases h with
  | tupleStruct _ _ _ h => exact h
  | index _ _ _ _ h => cases h

theorem less_struct (n : String) (vs ws : List (String × Val)) :
    Less (.struct n vs) (.struct n ws) ↔ LessFields vs ws := by
  refine ⟨fun h => ?_, .struct n vs ws⟩
  cases h with
  | struct _ _ _ h => exact h
  | index _ _ _ _ h => cases h

theorem index_self {i : UInt32} (h : i < i) : False := by
  rw [UInt32.lt_iff_toNat_lt] at h
  omega

theorem less_newtypeVariant (n vn : String) (i : UInt32) (v w : Val) :
    Less (.newtypeVariant n i vn v) (.newtypeVariant n i vn w) ↔ Less v w := by
  refine ⟨fun h => ?_, .newtypeVariant n i vn v w⟩
  cases h with
  | newtypeVariant _ _ _ _ _ h => exact h
  | index _ _ _ _ h1 h2 h3 => cases h1; cases h2; exact (index_self h3).elim

theorem less_tupleVariant (n vn : String) (i : UInt32) (vs ws : List Val) :
    Less (.tupleVariant n i vn vs) (.tupleVariant n i vn ws) ↔ LessAll vs ws := by
  refine ⟨fun h => ?_, .tupleVariant n i vn vs ws⟩
  cases h with
  | tupleVariant _ _ _ _ _ h => exact h
  | index _ _ _ _ h1 h2 h3 => cases h1; cases h2; exact (index_self h3).elim

theorem less_structVariant (n vn : String) (i : UInt32) (vs ws : List (String × Val)) :
    Less (.structVariant n i vn vs) (.structVariant n i vn ws) ↔ LessFields vs ws := by
  refine ⟨fun h => ?_, .structVariant n i vn vs ws⟩
  cases h with
  | structVariant _ _ _ _ _ h => exact h
  | index _ _ _ _ h1 h2 h3 => cases h1; cases h2; exact (index_self h3).elim

theorem less_cons (v w : Val) (vs ws : List Val) :
    LessAll (v :: vs) (w :: ws) ↔ Less v w ∨ v = w ∧ LessAll vs ws := by
  constructor
  · intro h
    cases h with
    | head _ _ _ _ h => exact .inl h
    | tail _ _ _ h => exact .inr ⟨rfl, h⟩
  · rintro (h | ⟨rfl, h⟩)
    · exact .head _ _ _ _ h
    · exact .tail _ _ _ h

theorem less_field (n : String) (v w : Val) (vs ws : List (String × Val)) :
    LessFields ((n, v) :: vs) ((n, w) :: ws) ↔ Less v w ∨ v = w ∧ LessFields vs ws := by
  constructor
  · intro h
    cases h with
    | head _ _ _ _ _ h => exact .inl h
    | tail _ _ _ h => exact .inr ⟨rfl, h⟩
  · rintro (h | ⟨rfl, h⟩)
    · exact .head _ _ _ _ _ h
    · exact .tail _ _ _ h

/-! ### The bytes of a type are in order -/

/-- The bytes of the values of the type are in the order of the values. -/
def BytesInOrder (t : Target) (ty : Ty) : Prop :=
  ∀ v w, Has t ty v → Has t ty w → (Less v w ↔ wire v < wire w)
/-- The same for lists of members, -/
def AllInOrder (t : Target) (ts : List Ty) : Prop :=
  ∀ v w, HasAll t ts v → HasAll t ts w → (LessAll v w ↔ wireAll v < wireAll w)
/-- of fields, -/
def FieldsInOrder (t : Target) (fs : List (String × Ty)) : Prop :=
  ∀ v w, HasFields t fs v → HasFields t fs w → (LessFields v w ↔ wireFields v < wireFields w)
/-- and for payloads of one variant. -/
def PayloadInOrder (t : Target) (name : String) (i : UInt32) (vn : String) (vt : VTy) : Prop :=
  ∀ v w, HasPayload t name i vn vt v → HasPayload t name i vn vt w →
    (Less v w ↔ wire v < wire w)

theorem wire_apart {t : Target} (hm : 4096 ≤ t.memLimit) {ty : Ty} (hs : Supported ty) {v w : Val}
    (hv : Has t ty v) (hw : Has t ty w) : Apart (wire v) (wire w) ∧ (wire v = wire w → v = w) := by
  have key : ∀ r s, wire v ++ r = wire w ++ s → v = w := by
    intro r s h
    have a := de_wire t hm ty hs v hv .eof r
    have b := de_wire t hm ty hs w hw .eof s
    rw [h, b] at a
    simp only [Outcome.ok.injEq, Prod.mk.injEq] at a
    exact a.1.symm
  exact ⟨fun r s h => by rw [key r s h], fun h => key [] [] (by rw [h])⟩

theorem exists_value (t : Target) {ty : Ty} (hs : Supported ty) (hp : Populated ty) :
    ∃ v, Has t ty v := by
  obtain ⟨⟨v, hv, -⟩, -⟩ := Props.C103_reached t ty hs hp
  exact ⟨v, hv⟩

theorem exists_values (t : Target) : (ts : List Ty) → AllSupported ts → AllPopulated ts →
    ∃ vs, HasAll t ts vs
  | [], _, _ => ⟨[], rfl⟩
  | ty :: ts, hs, hp => by
    obtain ⟨v, hv⟩ := exists_value t hs.1 hp.1
    obtain ⟨vs, hvs⟩ := exists_values t ts hs.2 hp.2
    exact ⟨v :: vs, v, vs, rfl, hv, hvs⟩

theorem exists_fields (t : Target) : (ts : List (String × Ty)) → FieldsSupported ts →
    FieldsPopulated ts → ∃ vs, HasFields t ts vs
  | [], _, _ => ⟨[], rfl⟩
  | (n, ty) :: ts, hs, hp => by
    obtain ⟨v, hv⟩ := exists_value t hs.1 hp.1
    obtain ⟨vs, hvs⟩ := exists_fields t ts hs.2 hp.2
    exact ⟨(n, v) :: vs, v, vs, rfl, hv, hvs⟩

theorem inOrder_option (t : Target) (ty : Ty) : BytesInOrder t (.option ty) ↔ BytesInOrder t ty := by
  constructor
  · intro h v w hv hw
    have := h (.some v) (.some w) (.inr ⟨v, rfl, hv⟩) (.inr ⟨w, rfl, hw⟩)
    rw [less_some, wire, wire, List.cons_lt_cons_iff] at this
    simpa using this
  · intro h v w hv hw
    rcases hv with rfl | ⟨v, rfl, hv⟩ <;> rcases hw with rfl | ⟨w, rfl, hw⟩
    · refine ⟨fun h => ?_, fun h => absurd h (lt_self _)⟩
      cases h with
      | index _ _ _ _ h => cases h
    · refine ⟨fun _ => ?_, fun _ => .none w⟩
      rw [wire, wire, List.cons_lt_cons_iff]
      exact .inl (by decide)
    · refine ⟨fun h => ?_, fun h => ?_⟩
      · cases h with
        | index _ _ _ _ h => cases h
      · rw [wire, wire, List.cons_lt_cons_iff] at h
        rcases h with h | ⟨h, -⟩ <;> exact absurd h (by decide)
    · rw [less_some, wire, wire, List.cons_lt_cons_iff, h v w hv hw]
      simp

theorem inOrder_newtype (t : Target) (n : String) (ty : Ty) :
    BytesInOrder t (.newtypeStruct n ty) ↔ BytesInOrder t ty := by
  constructor
  · intro h v w hv hw
    have := h (.newtypeStruct n v) (.newtypeStruct n w) ⟨v, rfl, hv⟩ ⟨w, rfl, hw⟩
    rwa [less_newtypeStruct, wire, wire] at this
  · rintro h _ _ ⟨v, rfl, hv⟩ ⟨w, rfl, hw⟩
    rw [less_newtypeStruct, wire, wire]
    exact h v w hv hw

theorem inOrder_tuple (t : Target) (ts : List Ty) : BytesInOrder t (.tuple ts) ↔ AllInOrder t ts := by
  constructor
  · intro h v w hv hw
    have := h (.tuple v) (.tuple w) ⟨v, rfl, hv⟩ ⟨w, rfl, hw⟩
    rwa [less_tuple, wire, wire] at this
  · rintro h _ _ ⟨v, rfl, hv⟩ ⟨w, rfl, hw⟩
    rw [less_tuple, wire, wire]
    exact h v w hv hw

theorem inOrder_tupleStruct (t : Target) (n : String) (ts : List Ty) :
    BytesInOrder t (.tupleStruct n ts) ↔ AllInOrder t ts := by
  constructor
  · intro h v w hv hw
    have := h (.tupleStruct n v) (.tupleStruct n w) ⟨v, rfl, hv⟩ ⟨w, rfl, hw⟩
    rwa [less_tupleStruct, wire, wire] at this
  · rintro h _ _ ⟨v, rfl, hv⟩ ⟨w, rfl, hw⟩
    rw [less_tupleStruct, wire, wire]
    exact h v w hv hw

theorem inOrder_struct (t : Target) (n : String) (ts : List (String × Ty)) :
    BytesInOrder t (.struct n ts) ↔ FieldsInOrder t ts := by
  constructor
  · intro h v w hv hw
    have := h (.struct n v) (.struct n w) ⟨v, rfl, hv⟩ ⟨w, rfl, hw⟩
    rwa [less_struct, wire, wire] at this
  · rintro h _ _ ⟨v, rfl, hv⟩ ⟨w, rfl, hw⟩
    rw [less_struct, wire, wire]
    exact h v w hv hw

theorem allInOrder_cons {t : Target} (hm : 4096 ≤ t.memLimit) (ty : Ty) (ts : List Ty)
    (hs : Supported ty ∧ AllSupported ts) (hp : Populated ty ∧ AllPopulated ts) :
    AllInOrder t (ty :: ts) ↔ BytesInOrder t ty ∧ AllInOrder t ts := by
  constructor
  · intro h
    obtain ⟨x, hx⟩ := exists_value t hs.1 hp.1
    obtain ⟨xs, hxs⟩ := exists_values t ts hs.2 hp.2
    constructor
    · intro v w hv hw
      have hi := h (v :: xs) (v :: xs) ⟨v, xs, rfl, hv, hxs⟩ ⟨v, xs, rfl, hv, hxs⟩
      have h1 := h (v :: xs) (w :: xs) ⟨v, xs, rfl, hv, hxs⟩ ⟨w, xs, rfl, hw, hxs⟩
      rw [less_cons, wireAll, wireAll, lt_append (wire_apart hm hs.1 hv hw).1] at h1
      rw [less_cons] at hi
      simp only [lt_self, and_false, or_false] at h1 hi
      simp only [true_and, iff_false, not_or] at hi
      simpa [hi.2] using h1
    · intro v w hv hw
      have hi := h (x :: xs) (x :: xs) ⟨x, xs, rfl, hx, hxs⟩ ⟨x, xs, rfl, hx, hxs⟩
      have h1 := h (x :: v) (x :: w) ⟨x, v, rfl, hx, hv⟩ ⟨x, w, rfl, hx, hw⟩
      rw [less_cons, wireAll, wireAll, lt_append (wire_apart hm hs.1 hx hx).1] at h1
      rw [less_cons] at hi
      simp only [lt_self, false_or, true_and, iff_false, not_or] at h1 hi
      simpa [hi.1] using h1
  · rintro ⟨h1, h2⟩ _ _ ⟨v, vs, rfl, hv, hvs⟩ ⟨w, ws, rfl, hw, hws⟩
    have ha := wire_apart hm hs.1 hv hw
    rw [less_cons, wireAll, wireAll, lt_append ha.1, h1 v w hv hw, h2 vs ws hvs hws]
    constructor
    · rintro (h | ⟨rfl, h⟩)
      · exact .inl h
      · exact .inr ⟨rfl, h⟩
    · rintro (h | ⟨e, h⟩)
      · exact .inl h
      · exact .inr ⟨ha.2 e, h⟩

theorem fieldsInOrder_cons {t : Target} (hm : 4096 ≤ t.memLimit) (n : String) (ty : Ty)
    (ts : List (String × Ty)) (hs : Supported ty ∧ FieldsSupported ts)
    (hp : Populated ty ∧ FieldsPopulated ts) :
    FieldsInOrder t ((n, ty) :: ts) ↔ BytesInOrder t ty ∧ FieldsInOrder t ts := by
  constructor
  · intro h
    obtain ⟨x, hx⟩ := exists_value t hs.1 hp.1
    obtain ⟨xs, hxs⟩ := exists_fields t ts hs.2 hp.2
    constructor
    · intro v w hv hw
      have hi := h ((n, v) :: xs) ((n, v) :: xs) ⟨v, xs, rfl, hv, hxs⟩ ⟨v, xs, rfl, hv, hxs⟩
      have h1 := h ((n, v) :: xs) ((n, w) :: xs) ⟨v, xs, rfl, hv, hxs⟩ ⟨w, xs, rfl, hw, hxs⟩
      rw [less_field, wireFields, wireFields, lt_append (wire_apart hm hs.1 hv hw).1] at h1
      rw [less_field] at hi
      simp only [lt_self, and_false, or_false] at h1 hi
      simp only [true_and, iff_false, not_or] at hi
      simpa [hi.2] using h1
    · intro v w hv hw
      have hi := h ((n, x) :: xs) ((n, x) :: xs) ⟨x, xs, rfl, hx, hxs⟩ ⟨x, xs, rfl, hx, hxs⟩
      have h1 := h ((n, x) :: v) ((n, x) :: w) ⟨x, v, rfl, hx, hv⟩ ⟨x, w, rfl, hx, hw⟩
      rw [less_field, wireFields, wireFields, lt_append (wire_apart hm hs.1 hx hx).1] at h1
      rw [less_field] at hi
      simp only [lt_self, false_or, true_and, iff_false, not_or] at h1 hi
      simpa [hi.1] using h1
  · rintro ⟨h1, h2⟩ _ _ ⟨v, vs, rfl, hv, hvs⟩ ⟨w, ws, rfl, hw, hws⟩
    have ha := wire_apart hm hs.1 hv hw
    rw [less_field, wireFields, wireFields, lt_append ha.1, h1 v w hv hw, h2 vs ws hvs hws]
    constructor
    · rintro (h | ⟨rfl, h⟩)
      · exact .inl h
      · exact .inr ⟨rfl, h⟩
    · rintro (h | ⟨e, h⟩)
      · exact .inl h
      · exact .inr ⟨ha.2 e, h⟩

/-! ### Variants -/

theorem lt_same (a c d : List UInt8) : a ++ c < a ++ d ↔ c < d := by
  rw [lt_append (apart_len rfl)]
  simp [lt_self]

theorem payload_unit (t : Target) (n : String) (i : UInt32) (vn : String) :
    PayloadInOrder t n i vn .unit := by
  rintro _ _ rfl rfl
  refine ⟨fun h => ?_, fun h => absurd h (lt_self _)⟩
  cases h with
  | index _ _ _ _ h1 h2 h3 => cases h1; cases h2; exact (index_self h3).elim

theorem payload_newtype (t : Target) (n : String) (i : UInt32) (vn : String) (ty : Ty) :
    PayloadInOrder t n i vn (.newtype ty) ↔ BytesInOrder t ty := by
  constructor
  · intro h v w hv hw
    have := h (.newtypeVariant n i vn v) (.newtypeVariant n i vn w) ⟨v, rfl, hv⟩ ⟨w, rfl, hw⟩
    rwa [less_newtypeVariant, wire, wire, lt_same] at this
  · rintro h _ _ ⟨v, rfl, hv⟩ ⟨w, rfl, hw⟩
    rw [less_newtypeVariant, wire, wire, lt_same]
    exact h v w hv hw

theorem payload_tuple (t : Target) (n : String) (i : UInt32) (vn : String) (ts : List Ty) :
    PayloadInOrder t n i vn (.tuple ts) ↔ AllInOrder t ts := by
  constructor
  · intro h v w hv hw
    have := h (.tupleVariant n i vn v) (.tupleVariant n i vn w) ⟨v, rfl, hv⟩ ⟨w, rfl, hw⟩
    rwa [less_tupleVariant, wire, wire, lt_same] at this
  · rintro h _ _ ⟨v, rfl, hv⟩ ⟨w, rfl, hw⟩
    rw [less_tupleVariant, wire, wire, lt_same]
    exact h v w hv hw

theorem payload_struct (t : Target) (n : String) (i : UInt32) (vn : String) (ts : List (String × Ty)) :
    PayloadInOrder t n i vn (.struct ts) ↔ FieldsInOrder t ts := by
  constructor
  · intro h v w hv hw
    have := h (.structVariant n i vn v) (.structVariant n i vn w) ⟨v, rfl, hv⟩ ⟨w, rfl, hw⟩
    rwa [less_structVariant, wire, wire, lt_same] at this
  · rintro h _ _ ⟨v, rfl, hv⟩ ⟨w, rfl, hw⟩
    rw [less_structVariant, wire, wire, lt_same]
    exact h v w hv hw

/-- The index of a variant is known from the value, and the bytes begin with it. -/
theorem payload_index {t : Target} {name : String} {i : UInt32} {vn : String} : {vt : VTy} →
    {v : Val} → HasPayload t name i vn vt v →
      indexOf v = Option.some i ∧ ∃ r, wire v = varint 32 i.toNat ++ r
  | .unit, _, rfl => ⟨rfl, [], by rw [wire, List.append_nil]⟩
  | .newtype _, _, ⟨_, rfl, _⟩ => ⟨rfl, _, by rw [wire]⟩
  | .tuple _, _, ⟨_, rfl, _⟩ => ⟨rfl, _, by rw [wire]⟩
  | .struct _, _, ⟨_, rfl, _⟩ => ⟨rfl, _, by rw [wire]⟩

theorem payload_exists (t : Target) (name : String) (i : UInt32) (vn : String) : (vt : VTy) →
    PayloadSupported vt → PayloadPopulated vt → ∃ v, HasPayload t name i vn vt v
  | .unit, _, _ => ⟨_, rfl⟩
  | .newtype _, hs, hp => by
    obtain ⟨v, hv⟩ := exists_value t hs hp
    exact ⟨_, v, rfl, hv⟩
  | .tuple _, hs, hp => by
    obtain ⟨v, hv⟩ := exists_values t _ hs hp
    exact ⟨_, v, rfl, hv⟩
  | .struct _, hs, hp => by
    obtain ⟨v, hv⟩ := exists_fields t _ hs hp
    exact ⟨_, v, rfl, hv⟩

theorem less_indices {v w : Val} {i j : UInt32} (h : Less v w) (hv : indexOf v = Option.some i)
    (hw : indexOf w = Option.some j) : i < j ∨ i = j := by
  cases h with
  | index _ _ a b h1 h2 h3 =>
    rw [h1, Option.some.injEq] at hv
    rw [h2, Option.some.injEq] at hw
    subst hv hw
    exact .inl h3
  | newtypeVariant =>
    simp only [indexOf, Option.some.injEq] at hv hw
    exact .inr (hv.symm.trans hw)
  | tupleVariant =>
    simp only [indexOf, Option.some.injEq] at hv hw
    exact .inr (hv.symm.trans hw)
  | structVariant =>
    simp only [indexOf, Option.some.injEq] at hv hw
    exact .inr (hv.symm.trans hw)
  | _ => cases hv

theorem inOrder_enum {t : Target} (name : String) (vs : List (String × VTy)) (hl : vs.length ≤ 16384)
    (hs : ∀ (i : Nat) p, vs[i]? = some p → PayloadSupported p.2 ∧ PayloadPopulated p.2) :
    BytesInOrder t (.enum name vs) ↔ vs.length ≤ 192 ∧
      ∀ (i : Nat) p, vs[i]? = some p → PayloadInOrder t name (UInt32.ofNat i) p.1 p.2 := by
  have hn : ∀ {i}, i < 16384 → (UInt32.ofNat i).toNat = i := fun h => by
    rw [UInt32.toNat_ofNat', Nat.mod_eq_of_lt (by omega)]
  have hlt : ∀ {i : Nat} {p}, vs[i]? = some p → i < vs.length := fun h => (List.getElem?_eq_some_iff.mp h).1
  constructor
  · intro h
    constructor
    · apply Classical.byContradiction
      intro hc
      have e1 : vs[191]? = some vs[191] := List.getElem?_eq_getElem (by omega)
      have e2 : vs[192]? = some vs[192] := List.getElem?_eq_getElem (by omega)
      obtain ⟨v, hv⟩ := payload_exists t name (UInt32.ofNat 191) vs[191].1 vs[191].2
        (hs _ _ e1).1 (hs _ _ e1).2
      obtain ⟨w, hw⟩ := payload_exists t name (UInt32.ofNat 192) vs[192].1 vs[192].2
        (hs _ _ e2).1 (hs _ _ e2).2
      obtain ⟨i1, r1, w1⟩ := payload_index hv
      obtain ⟨i2, r2, w2⟩ := payload_index hw
      have := h v w
        (by rw [Has, hasVariant_iff]; exact ⟨191, _, e1, by rwa [Nat.zero_add]⟩)
        (by rw [Has, hasVariant_iff]; exact ⟨192, _, e2, by rwa [Nat.zero_add]⟩)
      have hb := this.mp (.index v w _ _ i1 i2 (by decide))
      rw [w1, w2] at hb
      exact varint_swapped 32 (by decide) _ _ hb
    · intro i p hi v w hv hw
      exact h v w
        (by rw [Has, hasVariant_iff]; exact ⟨i, _, hi, by rwa [Nat.zero_add]⟩)
        (by rw [Has, hasVariant_iff]; exact ⟨i, _, hi, by rwa [Nat.zero_add]⟩)
  · rintro ⟨h1, h2⟩ v w hv hw
    rw [Has, hasVariant_iff] at hv hw
    obtain ⟨i, p, hi, hv⟩ := hv
    obtain ⟨j, q, hj, hw⟩ := hw
    rw [Nat.zero_add] at hv hw
    have a1 := hlt hi
    have a2 := hlt hj
    by_cases e : i = j
    · subst e
      rw [hi, Option.some.injEq] at hj
      subst hj
      exact h2 i p hi v w hv hw
    · obtain ⟨i1, r1, w1⟩ := payload_index hv
      obtain ⟨i2, r2, w2⟩ := payload_index hw
      have hA : Apart (varint 32 i) (varint 32 j) := by
        intro r s hrs
        exfalso
        have b1 := exec_u32_varint t .eof i (by omega) r
        have b2 := exec_u32_varint t .eof j (by omega) s
        rw [hrs, b2] at b1
        simp only [Outcome.ok.injEq, Prod.mk.injEq] at b1
        have := congrArg UInt32.toNat b1.1
        rw [hn (by omega), hn (by omega)] at this
        omega
      have hv' : varint 32 i ≠ varint 32 j := by
        intro he
        have := varint_lt 32 (by decide) (i := i) (j := j) (by omega) (by omega)
        have := varint_lt 32 (by decide) (i := j) (j := i) (by omega) (by omega)
        rw [he] at *
        simp only [lt_self, false_iff] at *
        omega
      rw [w1, w2, hn (by omega), hn (by omega), lt_append hA, varint_lt 32 (by decide) (by omega)
        (by omega)]
      simp only [hv', false_and, or_false]
      constructor
      · intro h
        rcases less_indices h i1 i2 with hlt' | he
        · rwa [UInt32.lt_iff_toNat_lt, hn (by omega), hn (by omega)] at hlt'
        · rw [← UInt32.toNat_inj, hn (by omega), hn (by omega)] at he
          exact absurd he e
      · intro h
        refine .index _ _ _ _ i1 i2 ?_
        rw [UInt32.lt_iff_toNat_lt, hn (by omega), hn (by omega)]
        exact h

theorem variants_at : (vs : List (String × VTy)) → VariantsSupported vs → VariantsPopulated vs →
    ∀ (i : Nat) p, vs[i]? = some p → PayloadSupported p.2 ∧ PayloadPopulated p.2
  | [], _, _, i, p, h => by simp at h
  | (vn, vt) :: vs, hs, hp, 0, p, h => by
    simp only [List.getElem?_cons_zero, Option.some.injEq] at h
    subst h
    exact ⟨hs.1, hp.1⟩
  | (vn, vt) :: vs, hs, hp, i + 1, p, h => by
    rw [List.getElem?_cons_succ] at h
    exact variants_at vs hs.2 hp.2 i p h

/-! ### Types whose bytes are in another order -/

theorem not_inOrder {t : Target} {ty : Ty} (v w : Val) (hv : Has t ty v) (hw : Has t ty w)
    (h : Less v w) (hb : ¬ wire v < wire w) : ¬ BytesInOrder t ty :=
  fun ho => hb ((ho v w hv hw).mp h)

theorem not_inOrder_u (t : Target) : ¬ BytesInOrder t .u16 ∧ ¬ BytesInOrder t .u32 ∧ ¬ BytesInOrder t .u64 := by
  refine ⟨not_inOrder (.u16 191) (.u16 192) ⟨_, rfl⟩ ⟨_, rfl⟩ (.u16 _ _ (by decide)) ?_,
    not_inOrder (.u32 191) (.u32 192) ⟨_, rfl⟩ ⟨_, rfl⟩ (.u32 _ _ (by decide)) ?_,
    not_inOrder (.u64 191) (.u64 192) ⟨_, rfl⟩ ⟨_, rfl⟩ (.u64 _ _ (by decide)) ?_⟩
  · have := varint_swapped 16 (by decide) [] []
    rwa [List.append_nil, List.append_nil] at this
  · have := varint_swapped 32 (by decide) [] []
    rwa [List.append_nil, List.append_nil] at this
  · have := varint_swapped 64 (by decide) [] []
    rwa [List.append_nil, List.append_nil] at this

theorem zigzag_swapped (w : Nat) (hw : 16 ≤ w) :
    ¬ varint w (zigzag (-1)) < varint w (zigzag 0) := by
  rw [show zigzag (-1) = 1 from rfl, show zigzag 0 = 0 from rfl, varint_byte w 1 hw (by decide),
    varint_byte w 0 hw (by decide)]
  decide

theorem not_inOrder_i (t : Target) : ¬ BytesInOrder t .i8 ∧ ¬ BytesInOrder t .i16 ∧ ¬ BytesInOrder t .i32 ∧
    ¬ BytesInOrder t .i64 :=
  ⟨not_inOrder (.i8 (-1)) (.i8 0) ⟨_, rfl⟩ ⟨_, rfl⟩ (.i8 _ _ (by decide)) (by rw [wire, wire]; decide),
    not_inOrder (.i16 (-1)) (.i16 0) ⟨_, rfl⟩ ⟨_, rfl⟩ (.i16 _ _ (by decide))
      (zigzag_swapped 16 (by decide)),
    not_inOrder (.i32 (-1)) (.i32 0) ⟨_, rfl⟩ ⟨_, rfl⟩ (.i32 _ _ (by decide))
      (zigzag_swapped 32 (by decide)),
    not_inOrder (.i64 (-1)) (.i64 0) ⟨_, rfl⟩ ⟨_, rfl⟩ (.i64 _ _ (by decide))
      (zigzag_swapped 64 (by decide))⟩

theorem small_bits (t : Target) : 200 < 2 ^ t.ptr.bits := by cases t.ptr <;> decide +kernel

theorem utf8_a : utf8 "a" = [97] := by decide +kernel
theorem utf8_aa : utf8 "aa" = [97, 97] := by decide +kernel
theorem utf8_b : utf8 "b" = [98] := by decide +kernel

theorem not_inOrder_string (t : Target) : ¬ BytesInOrder t .string := by
  have hb := small_bits t
  refine not_inOrder (.str "aa") (.str "b") ⟨_, rfl, ?_⟩ ⟨_, rfl, ?_⟩ (.str _ _ ?_) ?_
  · rw [utf8_aa]; exact Nat.lt_trans (by decide) hb
  · rw [utf8_b]; exact Nat.lt_trans (by decide) hb
  · rw [utf8_aa, utf8_b]; decide
  · rw [wire, wire, utf8_aa, utf8_b, block_short _ (by decide), block_short _ (by decide)]; decide

theorem not_inOrder_byteBuf (t : Target) : ¬ BytesInOrder t .byteBuf := by
  have hb := small_bits t
  refine not_inOrder (.bytes [97, 97]) (.bytes [98]) ⟨_, rfl, ?_⟩ ⟨_, rfl, ?_⟩ (.bytes _ _ ?_) ?_
  · exact Nat.lt_trans (by decide) hb
  · exact Nat.lt_trans (by decide) hb
  · decide
  · rw [wire, wire, block_short _ (by decide), block_short _ (by decide)]; decide

theorem less_replicate (v : Val) : (n : Nat) → LessAll (List.replicate n v) (List.replicate (n + 1) v)
  | 0 => .nil _ _
  | n + 1 => .tail _ _ _ (less_replicate v n)

theorem not_inOrder_seq (t : Target) (ty : Ty) (v : Val) (hv : Has t ty v) :
    ¬ BytesInOrder t (.seq ty) := by
  have hb := small_bits t
  refine not_inOrder (.seq (some (List.replicate 191 v).length) (List.replicate 191 v))
    (.seq (some (List.replicate 192 v).length) (List.replicate 192 v)) ⟨_, rfl, ?_, ?_⟩
    ⟨_, rfl, ?_, ?_⟩ (.seq _ _ _ _ (less_replicate v 191)) ?_
  · rw [List.length_replicate]; omega
  · intro w hw; rw [List.eq_of_mem_replicate hw]; exact hv
  · rw [List.length_replicate]; omega
  · intro w hw; rw [List.eq_of_mem_replicate hw]; exact hv
  · rw [wire, wire, List.length_replicate, List.length_replicate, lengthPrefix, lengthPrefix]
    exact varint_swapped 64 (by decide) _ _

theorem not_inOrder_map (t : Target) (ty : Ty) (v : Val) (hv : Has t ty v) :
    ¬ BytesInOrder t (.map .string ty) := by
  have hb := small_bits t
  refine not_inOrder (.map (some 2) [(.str "a", v), (.str "b", v)]) (.map (some 1) [(.str "b", v)])
    ⟨[_, _], rfl, ?_, ?_⟩ ⟨[_], rfl, ?_, ?_⟩ (.map _ _ _ _ (.key _ _ _ _ _ _ (.str _ _ ?_))) ?_
  · exact Nat.lt_trans (by simp) hb
  · intro e he
    simp only [List.mem_cons, List.not_mem_nil, or_false] at he
    rcases he with rfl | rfl
    · exact ⟨⟨_, rfl, by rw [utf8_a]; exact Nat.lt_trans (by decide) hb⟩, hv⟩
    · exact ⟨⟨_, rfl, by rw [utf8_b]; exact Nat.lt_trans (by decide) hb⟩, hv⟩
  · exact Nat.lt_trans (by simp) hb
  · intro e he
    simp only [List.mem_cons, List.not_mem_nil, or_false] at he
    subst he
    exact ⟨⟨_, rfl, by rw [utf8_b]; exact Nat.lt_trans (by decide) hb⟩, hv⟩
  · rw [utf8_a, utf8_b]; decide
  · rw [wire, wire, lengthPrefix, lengthPrefix, varint_byte 64 2 (by decide) (by decide),
      varint_byte 64 1 (by decide) (by decide), List.cons_append, List.cons_append,
      List.cons_lt_cons_iff]
    rintro (h | ⟨h, -⟩) <;> exact absurd h (by decide)

/-! ### Types whose bytes are in order -/

theorem inOrder_unit (t : Target) : BytesInOrder t .unit := by
  rintro _ _ rfl rfl
  refine ⟨fun h => ?_, fun h => absurd h (lt_self _)⟩
  cases h with
  | index _ _ _ _ h => cases h

theorem inOrder_unitStruct (t : Target) (n : String) : BytesInOrder t (.unitStruct n) := by
  rintro _ _ rfl rfl
  refine ⟨fun h => ?_, fun h => absurd h (lt_self _)⟩
  cases h with
  | index _ _ _ _ h => cases h

theorem inOrder_bool (t : Target) : BytesInOrder t .bool := by
  rintro _ _ ⟨v, rfl⟩ ⟨w, rfl⟩
  have key : Less (.bool v) (.bool w) ↔ v = false ∧ w = true := by
    constructor
    · intro h
      cases h with
      | bool => exact ⟨rfl, rfl⟩
      | index _ _ _ _ h => cases h
    · rintro ⟨rfl, rfl⟩
      exact .bool
  rw [key, wire, wire]
  cases v <;> cases w <;> decide

theorem inOrder_u8 (t : Target) : BytesInOrder t .u8 := by
  rintro _ _ ⟨v, rfl⟩ ⟨w, rfl⟩
  have key : Less (.u8 v) (.u8 w) ↔ v < w := by
    refine ⟨fun h => ?_, .u8 v w⟩
    cases h with
    | u8 _ _ h => exact h
    | index _ _ _ _ h => cases h
  rw [key, wire, wire, List.cons_lt_cons_iff]
  simp

theorem inOrder_char (t : Target) : BytesInOrder t .char := by
  rintro _ _ ⟨v, rfl⟩ ⟨w, rfl⟩
  exact char_lt_iff v w

/-! ### All types -/

mutual
theorem inOrder_iff {t : Target} (hm : 4096 ≤ t.memLimit) : (ty : Ty) → Supported ty →
    Populated ty → HasOrd ty → (BytesInOrder t ty ↔ SortsByBytes ty)
  | .bool, _, _, _ => ⟨fun _ => trivial, fun _ => inOrder_bool t⟩
  | .u8, _, _, _ => ⟨fun _ => trivial, fun _ => inOrder_u8 t⟩
  | .char, _, _, _ => ⟨fun _ => trivial, fun _ => inOrder_char t⟩
  | .unit, _, _, _ => ⟨fun _ => trivial, fun _ => inOrder_unit t⟩
  | .unitStruct n, _, _, _ => ⟨fun _ => trivial, fun _ => inOrder_unitStruct t n⟩
  | .i8, _, _, _ => ⟨fun h => absurd h (not_inOrder_i t).1, nofun⟩
  | .i16, _, _, _ => ⟨fun h => absurd h (not_inOrder_i t).2.1, nofun⟩
  | .i32, _, _, _ => ⟨fun h => absurd h (not_inOrder_i t).2.2.1, nofun⟩
  | .i64, _, _, _ => ⟨fun h => absurd h (not_inOrder_i t).2.2.2, nofun⟩
  | .u16, _, _, _ => ⟨fun h => absurd h (not_inOrder_u t).1, nofun⟩
  | .u32, _, _, _ => ⟨fun h => absurd h (not_inOrder_u t).2.1, nofun⟩
  | .u64, _, _, _ => ⟨fun h => absurd h (not_inOrder_u t).2.2, nofun⟩
  | .i128, hs, _, _ => hs.elim
  | .u128, hs, _, _ => hs.elim
  | .any, hs, _, _ => hs.elim
  | .str, hs, _, _ => hs.elim
  | .bytes, hs, _, _ => hs.elim
  | .ignoredAny, hs, _, _ => hs.elim
  | .f32, _, _, ho => ho.elim
  | .f64, _, _, ho => ho.elim
  | .string, _, _, _ => ⟨fun h => absurd h (not_inOrder_string t), nofun⟩
  | .byteBuf, _, _, _ => ⟨fun h => absurd h (not_inOrder_byteBuf t), nofun⟩
  | .option ty, hs, hp, ho => (inOrder_option t ty).trans (inOrder_iff hm ty hs hp ho)
  | .newtypeStruct n ty, hs, hp, ho => (inOrder_newtype t n ty).trans (inOrder_iff hm ty hs hp ho)
  | .seq ty, hs, hp, _ => by
    obtain ⟨v, hv⟩ := exists_value t (ty := ty) hs hp
    exact ⟨fun h => absurd h (not_inOrder_seq t ty v hv), nofun⟩
  | .map kt vt, hs, hp, _ => by
    obtain ⟨rfl, hs⟩ := hs
    obtain ⟨v, hv⟩ := exists_value t hs hp.2
    exact ⟨fun h => absurd h (not_inOrder_map t vt v hv), nofun⟩
  | .tuple ts, hs, hp, ho => (inOrder_tuple t ts).trans (allInOrder_iff hm ts hs hp ho)
  | .tupleStruct n ts, hs, hp, ho =>
    (inOrder_tupleStruct t n ts).trans (allInOrder_iff hm ts hs hp ho)
  | .struct n fs, hs, hp, ho => (inOrder_struct t n fs).trans (fieldsInOrder_iff hm fs hs hp ho)
  | .enum n vs, hs, hp, ho => by
    rw [inOrder_enum n vs hs.1 (variants_at vs hs.2 hp.2)]
    have := variantsInOrder_iff hm n vs 0 hs.2 hp.2 ho
    simp only [Nat.zero_add] at this
    rw [this]
    exact Iff.rfl

theorem allInOrder_iff {t : Target} (hm : 4096 ≤ t.memLimit) : (ts : List Ty) → AllSupported ts →
    AllPopulated ts → AllHaveOrd ts → (AllInOrder t ts ↔ AllSort ts)
  | [], _, _, _ => by
    refine ⟨fun _ => trivial, fun _ => ?_⟩
    rintro _ _ rfl rfl
    exact ⟨fun h => (by cases h), fun h => absurd h (lt_self _)⟩
  | ty :: ts, hs, hp, ho => by
    rw [allInOrder_cons hm ty ts hs hp, inOrder_iff hm ty hs.1 hp.1 ho.1,
      allInOrder_iff hm ts hs.2 hp.2 ho.2]
    exact Iff.rfl

theorem fieldsInOrder_iff {t : Target} (hm : 4096 ≤ t.memLimit) : (ts : List (String × Ty)) →
    FieldsSupported ts → FieldsPopulated ts → FieldsHaveOrd ts → (FieldsInOrder t ts ↔ FieldsSort ts)
  | [], _, _, _ => by
    refine ⟨fun _ => trivial, fun _ => ?_⟩
    rintro _ _ rfl rfl
    exact ⟨fun h => (by cases h), fun h => absurd h (lt_self _)⟩
  | (n, ty) :: ts, hs, hp, ho => by
    rw [fieldsInOrder_cons hm n ty ts hs hp, inOrder_iff hm ty hs.1 hp.1 ho.1,
      fieldsInOrder_iff hm ts hs.2 hp.2 ho.2]
    exact Iff.rfl

theorem variantsInOrder_iff {t : Target} (hm : 4096 ≤ t.memLimit) (name : String) :
    (vs : List (String × VTy)) → (k : Nat) → VariantsSupported vs → VariantsPopulated vs →
    VariantsHaveOrd vs →
    ((∀ (i : Nat) p, vs[i]? = some p → PayloadInOrder t name (UInt32.ofNat (k + i)) p.1 p.2) ↔
      VariantsSort vs)
  | [], _, _, _, _ => ⟨fun _ => trivial, fun _ i p h => by simp at h⟩
  | (vn, vt) :: vs, k, hs, hp, ho => by
    have h1 := payloadInOrder_iff hm name (UInt32.ofNat k) vn vt hs.1 hp.1 ho.1
    have h2 := variantsInOrder_iff hm name vs (k + 1) hs.2 hp.2 ho.2
    rw [VariantsSort, ← h1, ← h2]
    constructor
    · intro h
      refine ⟨h 0 (vn, vt) rfl, fun i p hi => ?_⟩
      have := h (i + 1) p (by simpa using hi)
      rwa [show k + (i + 1) = k + 1 + i by omega] at this
    · rintro ⟨h3, h4⟩ i p hi
      cases i with
      | zero =>
        simp only [List.getElem?_cons_zero, Option.some.injEq] at hi
        subst hi
        exact h3
      | succ i =>
        rw [show k + (i + 1) = k + 1 + i by omega]
        exact h4 i p (by simpa using hi)

theorem payloadInOrder_iff {t : Target} (hm : 4096 ≤ t.memLimit) (name : String) (i : UInt32)
    (vn : String) : (vt : VTy) → PayloadSupported vt → PayloadPopulated vt → PayloadHasOrd vt →
      (PayloadInOrder t name i vn vt ↔ PayloadSorts vt)
  | .unit, _, _, _ => ⟨fun _ => trivial, fun _ => payload_unit t name i vn⟩
  | .newtype ty, hs, hp, ho => (payload_newtype t name i vn ty).trans (inOrder_iff hm ty hs hp ho)
  | .tuple ts, hs, hp, ho => (payload_tuple t name i vn ts).trans (allInOrder_iff hm ts hs hp ho)
  | .struct fs, hs, hp, ho =>
    (payload_struct t name i vn fs).trans (fieldsInOrder_iff hm fs hs hp ho)
end

end Dlhn
