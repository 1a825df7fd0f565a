import Verif.Spec.Evolve
import Verif.Proof.DeHas
import Verif.Proof.Ser
import Verif.Proof.Visit
/-! # Facts about changes of types -/
namespace Dlhn.Spec

open De

theorem varint_small (w w' n : Nat) (hw : groups n ≤ w / 8) (hw' : groups n ≤ w' / 8) :
    varint w n = varint w' n := by
  simp only [varint, if_pos hw, if_pos hw']

theorem groups_le (k n : Nat) (hk : 0 < k) (h : n < 128 ^ k) : groups n ≤ k := by
  induction k generalizing n with
  | zero => omega
  | succ k ih =>
    rw [groups]
    split
    · omega
    · cases k with
      | zero => simp at h; omega
      | succ k =>
        have := ih (n / 128) (by omega) (by
          rw [Nat.div_lt_iff_lt_mul (by decide)]; rwa [Nat.pow_succ] at h)
        omega

theorem varint_byte (w n : Nat) (hw : 16 ≤ w) (h : n < 128) : varint w n = [UInt8.ofNat n] := by
  have hg : groups n = 1 := by rw [groups, if_pos h]
  simp only [varint, hg]
  rw [if_pos (by omega)]
  simp [leBytes]
  congr 1
  omega

theorem one_le_leadingOnes (b : UInt8) (h : 128 ≤ b.toNat) : 1 ≤ leadingOnes b := by
  have h' : ∀ b : BitVec 8, 128 ≤ b.toNat → 1 ≤ leadingOnes ⟨b⟩ := by decide +kernel
  exact h' b.toBitVec h

attribute [local irreducible] leadingOnes

/-- The number of 7-bit groups, and the number itself. -/
theorem le_groups (k n : Nat) (h : 128 ^ k ≤ n) : k < groups n := by
  cases Nat.lt_or_ge k (groups n) with
  | inl h => exact h
  | inr h' =>
    have := (PrefixVarint.groups_le_iff (groups n - 1) n).mp (by
      have := PrefixVarint.groups_pos n; omega)
    have hp := PrefixVarint.groups_pos n
    rw [show groups n - 1 + 1 = groups n by omega] at this
    have h2 : (2 : Nat) ^ (7 * groups n) ≤ 2 ^ (7 * k) := Nat.pow_le_pow_right (by decide) (by omega)
    rw [show (128 : Nat) = 2 ^ 7 from rfl, ← Nat.pow_mul] at h
    omega

theorem take_leBytes : (n m v : Nat) → m ≤ n → (leBytes n v).take m = leBytes m v
  | _, 0, _, _ => by simp [leBytes]
  | n + 1, m + 1, v, h => by
    rw [leBytes, leBytes, List.take_succ_cons, take_leBytes n m _ (by omega)]

/-- A number read at a greater width than it was written. -/
theorem varintDecode_widen (w w' v : Nat) (hw : w = 16 ∨ w = 32) (hw' : w' = 32 ∨ w' = 64)
    (hlt : w < w') (hv : v < 2 ^ w) (rest : List UInt8) :
    varintDecode w' (varint w v ++ rest)
      = some (if v < 128 ^ (w / 8) then v else 2 ^ (7 - w / 8) * v, rest) := by
  split
  · rename_i h
    have hg := groups_le (w / 8) v (by rcases hw with h | h <;> subst h <;> decide) h
    rw [varint_small w w' v hg (by omega)]
    refine varintDecode_varint w' v (by omega) (Nat.lt_of_lt_of_le hv ?_) rest
    exact Nat.pow_le_pow_right (by decide) (by omega)
  · rename_i h
    have hg := le_groups (w / 8) v (by omega)
    simp only [varint]
    rw [if_neg (by omega)]
    have hlo : leadingOnes (UInt8.ofNat (256 - 2 ^ (8 - w / 8))) = w / 8 := by
      apply leadingOnes_char
      · omega
      · rcases hw with h | h <;> subst h <;> simp
      · rcases hw with h | h <;> subst h <;> simp
    simp only [List.cons_append, varintDecode, extraBytes, hlo,
      Nat.min_eq_left (show w / 8 ≤ w' / 8 by omega)]
    rw [if_neg (by simp), if_pos (by omega), List.take_append_of_le_length (by simp),
      List.drop_append_of_le_length (by simp), List.take_of_length_le (by simp),
      List.drop_of_length_le (by simp), leValue_leBytes, Nat.mod_eq_of_lt (b := 256 ^ (w / 8)) (by
        rcases hw with h | h <;> subst h <;> simpa using hv)]
    rcases hw with h | h <;> subst h <;> simp

/-- How much of `v` is in the first byte of its encoding. -/
def firstBits (w v : Nat) : Nat := if groups v ≤ w / 8 then 8 - groups v else 0

/-- A number read at a smaller width than it was written: the reader takes the
bytes after the first for the number. -/
theorem varintDecode_narrow (w w' v : Nat) (hw : w = 32 ∨ w = 64) (hw' : w' = 16 ∨ w' = 32)
    (hlt : w' < w) (rest : List UInt8) (h : 128 ^ (w' / 8) ≤ v) :
    varintDecode w' (varint w v ++ rest)
      = some (v / 2 ^ firstBits w v % 256 ^ (w' / 8),
          (leBytes (min (groups v - 1) (w / 8)) (v / 2 ^ firstBits w v)).drop (w' / 8) ++ rest) := by
  have hg := le_groups (w' / 8) v h
  simp only [varint, firstBits]
  split
  · rename_i hk
    generalize hK : groups v = k at *
    have hlo : leadingOnes (UInt8.ofNat (256 - 2 ^ (9 - k) + v % 2 ^ (8 - k))) = k - 1 := by
      have : k = 1 ∨ k = 2 ∨ k = 3 ∨ k = 4 ∨ k = 5 ∨ k = 6 ∨ k = 7 ∨ k = 8 := by omega
      apply leadingOnes_char
      · omega
      · rcases this with h | h | h | h | h | h | h | h <;> subst h <;> simp <;> omega
      · rcases this with h | h | h | h | h | h | h | h <;> subst h <;> simp <;> omega
    simp only [List.cons_append, varintDecode, extraBytes, hlo,
      Nat.min_eq_right (show w' / 8 ≤ k - 1 by omega), Nat.min_eq_left (show k - 1 ≤ w / 8 by omega)]
    rw [if_neg (by simp; omega), if_neg (by omega), List.take_append_of_le_length (by simp; omega),
      List.drop_append_of_le_length (by simp; omega), take_leBytes _ _ _ (by omega), leValue_leBytes]
  · rename_i hk
    have hlo : leadingOnes (UInt8.ofNat (256 - 2 ^ (8 - w / 8))) = w / 8 := by
      apply leadingOnes_char
      · omega
      · rcases hw with h | h <;> subst h <;> simp
      · rcases hw with h | h <;> subst h <;> simp
    simp only [List.cons_append, varintDecode, extraBytes, hlo,
      Nat.min_eq_right (show w' / 8 ≤ w / 8 by omega), Nat.min_eq_right (show w / 8 ≤ groups v - 1 by omega),
      Nat.pow_zero, Nat.div_one]
    rw [if_neg (by simp; omega), if_neg (by omega), List.take_append_of_le_length (by simp; omega),
      List.drop_append_of_le_length (by simp; omega), take_leBytes _ _ _ (by omega), leValue_leBytes]

/-- A number that needs more room than the reader gives it is read as another. -/
theorem narrow_ne (w w' v : Nat) (hw : w = 32 ∨ w = 64) (hw' : w' = 16 ∨ w' = 32)
    (hlt : w' < w) (h : 128 ^ (w' / 8) ≤ v) : v / 2 ^ firstBits w v % 256 ^ (w' / 8) ≠ v := by
  have hp : 0 < (128 : Nat) ^ (w' / 8) := Nat.pow_pos (by decide)
  intro he
  have hv : v < 256 ^ (w' / 8) := by rw [← he]; exact Nat.mod_lt _ (Nat.pow_pos (by decide))
  have hg : groups v ≤ w' / 8 + 1 := by
    refine groups_le _ v (by omega) (Nat.lt_trans hv ?_)
    rcases hw' with h | h <;> subst h <;> decide
  have hf : 1 ≤ firstBits w v := by
    rw [firstBits, if_pos (by omega)]
    omega
  have h1 : v / 2 ^ firstBits w v < v := Nat.div_lt_self (by omega) (by
    calc 1 < 2 ^ 1 := by decide
      _ ≤ _ := Nat.pow_le_pow_right (by decide) hf)
  have h2 := Nat.mod_le (v / 2 ^ firstBits w v) (256 ^ (w' / 8))
  omega

/-- The next group: the value divided by the room in the first byte. -/
theorem narrow_next (w w' v : Nat) (hw : w = 32 ∨ w = 64) (hw' : w' = 16 ∨ w' = 32)
    (hlt : w' < w) (h : 128 ^ (w' / 8) ≤ v) (h2 : v < 128 ^ (w' / 8 + 1)) (rest : List UInt8) :
    varintDecode w' (varint w v ++ rest) = some (v / 2 ^ (7 - w' / 8), rest) := by
  have hg : groups v = w' / 8 + 1 := by
    have := groups_le _ v (by omega) h2
    have := le_groups _ v h
    omega
  have hf : firstBits w v = 7 - w' / 8 := by rw [firstBits, if_pos (by omega), hg]; omega
  rw [varintDecode_narrow w w' v hw hw' hlt rest h, hf, hg, Nat.add_sub_cancel,
    Nat.min_eq_left (by omega), List.drop_of_length_le (by simp), Nat.mod_eq_of_lt]
  · rfl
  · rw [Nat.div_lt_iff_lt_mul (Nat.pow_pos (by decide))]
    rcases hw' with h | h <;> subst h <;> simpa using h2

/-- Beyond that, bytes are left over. -/
theorem narrow_rest (w w' v : Nat) (hw : w = 32 ∨ w = 64) (hw' : w' = 16 ∨ w' = 32)
    (hlt : w' < w) (h : 128 ^ (w' / 8 + 1) ≤ v) (rest : List UInt8) :
    ∃ left, left ≠ [] ∧ varintDecode w' (varint w v ++ rest)
      = some (v / 2 ^ firstBits w v % 256 ^ (w' / 8), left ++ rest) := by
  have hg := le_groups _ v h
  refine ⟨_, ?_, varintDecode_narrow w w' v hw hw' hlt rest (Nat.le_trans ?_ h)⟩
  · intro he
    have := congrArg List.length he
    simp at this
    omega
  · exact Nat.pow_le_pow_right (by decide) (by omega)

theorem wireAll_append (vs ws : List Val) : wireAll (vs ++ ws) = wireAll vs ++ wireAll ws := by
  simp [wireAll_eq]

theorem wireAll_u8 (bs : List UInt8) : wireAll (bs.map .u8) = bs := by
  induction bs with
  | nil => rfl
  | cons b bs ih => rw [List.map_cons, wireAll, wire, ih]; rfl

theorem wireFields_eq (fs : List (String × Val)) : wireFields fs = wireAll (fs.map (·.2)) := by
  induction fs with
  | nil => rfl
  | cons f fs ih => obtain ⟨n, v⟩ := f; rw [wireFields, List.map_cons, wireAll, ih]

theorem wireEntries_pairs (es : List (Val × Val)) :
    wireEntries es = wireAll (es.map fun e => .tuple [e.1, e.2]) := by
  induction es with
  | nil => rfl
  | cons e es ih =>
    obtain ⟨k, v⟩ := e
    rw [wireEntries, List.map_cons, wireAll, ih]
    simp [wire, wireAll]

theorem zigzag_lt {x : Int} {k : Nat} (h1 : -(2 : Int) ^ k ≤ x) (h2 : x < 2 ^ k) :
    zigzag x < 2 ^ (k + 1) := by
  have e : ((2 ^ (k + 1) : Nat) : Int) = 2 * 2 ^ k := by
    rw [Nat.pow_succ]; push_cast; omega
  rw [zigzag]
  split <;> omega

/-- The same data have the same bytes. -/
theorem Same.wire {v w : Val} (h : Same v w) : Spec.wire v = Spec.wire w := by
  induction h with
  | refl => rfl
  | symm _ ih => exact ih.symm
  | trans _ _ ih1 ih2 => exact ih1.trans ih2
  | u8_u16 x y h hb =>
    rw [Spec.wire, Spec.wire, ← h, varint_byte 16 _ (by decide) hb]
    simp
  | u16_u32 x y h hb =>
    rw [Spec.wire, Spec.wire, ← h]
    exact varint_small _ _ _ (groups_le 2 _ (by decide) hb)
      (Nat.le_trans (groups_le 2 _ (by decide) hb) (by decide))
  | u32_u64 x y h hb =>
    rw [Spec.wire, Spec.wire, ← h]
    exact varint_small _ _ _ (groups_le 4 _ (by decide) hb)
      (Nat.le_trans (groups_le 4 _ (by decide) hb) (by decide))
  | i16_i32 x y h h1 h2 =>
    rw [Spec.wire, Spec.wire, ← h]
    have hb := zigzag_lt (k := 13) h1 h2
    exact varint_small _ _ _ (groups_le 2 _ (by decide) hb)
      (Nat.le_trans (groups_le 2 _ (by decide) hb) (by decide))
  | i32_i64 x y h h1 h2 =>
    rw [Spec.wire, Spec.wire, ← h]
    have hb := zigzag_lt (k := 27) h1 h2
    exact varint_small _ _ _ (groups_le 4 _ (by decide) hb)
      (Nat.le_trans (groups_le 4 _ (by decide) hb) (by decide))
  | bool_u8 b => simp [Spec.wire]
  | i8_u8 x => simp [Spec.wire]
  | f32_bytes bits => rw [Spec.wire, Spec.wire, wireAll_u8]
  | f64_bytes bits => rw [Spec.wire, Spec.wire, wireAll_u8]
  | char_str c => simp [Spec.wire]
  | str_bytes s => simp [Spec.wire]
  | bytes_seq bs => rw [Spec.wire, Spec.wire, wireAll_u8]; rfl
  | none_bool => simp [Spec.wire]
  | some_tuple v => simp [Spec.wire, wireAll]
  | unit_tuple => simp [Spec.wire, wireAll]
  | unitStruct => simp [Spec.wire]
  | newtype => simp [Spec.wire]
  | single => simp [Spec.wire, wireAll]
  | nested pre vs post => simp [Spec.wire, wireAll_append, wireAll]
  | tupleStruct => simp [Spec.wire]
  | struct => simp [Spec.wire, wireFields_eq]
  | unitVariant => simp [Spec.wire]
  | newtypeVariant => simp [Spec.wire, wireAll]
  | tupleVariant => simp [Spec.wire, wireAll]
  | structVariant => simp [Spec.wire, wireAll, wireFields_eq]
  | map => simp [Spec.wire, wireEntries_pairs]
  | tupleAt pre post v w _ ih => simp [Spec.wire, wireAll_append, wireAll, ih]
  | seqAt h pre post v w _ ih => simp [Spec.wire, wireAll_append, wireAll, ih]

/-! ## Congruences -/

theorem Same.some {v w : Val} (h : Same v w) : Same (.some v) (.some w) :=
  (Same.some_tuple v).trans ((Same.tupleAt [.bool true] [] v w h).trans (Same.some_tuple w).symm)

theorem Same.tupleCons (u : Val) {vs ws : List Val} (h : Same (.tuple vs) (.tuple ws)) :
    Same (.tuple (u :: vs)) (.tuple (u :: ws)) := by
  have e : ∀ us, Same (.tuple (u :: us)) (.tuple [u, .tuple us]) := fun us => by
    have := Same.nested [u] us []
    simp only [List.append_nil, List.singleton_append] at this
    exact this.symm
  exact (e vs).trans ((Same.tupleAt [u] [] _ _ h).trans (e ws).symm)

theorem Same.seqAll {A B : Val → Prop} (f : ∀ v, A v → ∃ w, B w ∧ Same v w) (h : Option Nat) :
    (vs pre : List Val) → (∀ v ∈ vs, A v) → ∃ ws, ws.length = vs.length ∧ (∀ w ∈ ws, B w) ∧
      Same (.seq h (pre ++ vs)) (.seq h (pre ++ ws))
  | [], pre, _ => ⟨[], rfl, by simp, .refl _⟩
  | v :: vs, pre, hv => by
    obtain ⟨w, hw, hs⟩ := f v (hv v (by simp))
    obtain ⟨ws, h1, h2, h3⟩ := seqAll f h vs (pre ++ [w]) fun v hm => hv v (by simp [hm])
    refine ⟨w :: ws, by simp [h1], by simpa using ⟨hw, h2⟩, ?_⟩
    simp only [List.append_assoc, List.singleton_append] at h3
    exact (Same.seqAt h pre vs v w hs).trans h3

/-! ## Values of tuples, structs and enums -/

theorem hasAll_append (t : Target) : (ts us : List Ty) → (vs : List Val) →
    (HasAll t (ts ++ us) vs ↔ ∃ xs ys, vs = xs ++ ys ∧ HasAll t ts xs ∧ HasAll t us ys)
  | [], us, vs => by
    simp only [List.nil_append, HasAll]
    constructor
    · exact fun h => ⟨[], vs, rfl, rfl, h⟩
    · rintro ⟨_, ys, rfl, rfl, h⟩; exact h
  | ty :: ts, us, vs => by
    simp only [List.cons_append, HasAll, hasAll_append t ts us]
    constructor
    · rintro ⟨w, ws, rfl, hw, xs, ys, rfl, h1, h2⟩
      exact ⟨w :: xs, ys, rfl, ⟨w, xs, rfl, hw, h1⟩, h2⟩
    · rintro ⟨_, ys, rfl, ⟨w, ws, rfl, hw, h1⟩, h2⟩
      exact ⟨w, ws ++ ys, rfl, hw, ws, ys, rfl, h1, h2⟩

theorem hasFields_tuple (t : Target) : (fts : List (String × Ty)) → (fs : List (String × Val)) →
    HasFields t fts fs → HasAll t (fts.map (·.2)) (fs.map (·.2))
  | [], fs, h => by rw [HasFields] at h; subst h; rfl
  | (n, ty) :: fts, fs, h => by
    obtain ⟨w, ws, rfl, hw, h⟩ := h
    exact ⟨w, _, rfl, hw, hasFields_tuple t fts ws h⟩

theorem hasFields_of_tuple (t : Target) : (fts : List (String × Ty)) → (vs : List Val) →
    HasAll t (fts.map (·.2)) vs → ∃ fs, HasFields t fts fs ∧ fs.map (·.2) = vs
  | [], vs, h => by
    rw [List.map_nil, HasAll] at h; subst h; exact ⟨[], rfl, rfl⟩
  | (n, ty) :: fts, vs, h => by
    obtain ⟨w, ws, rfl, hw, h⟩ := h
    obtain ⟨fs, h1, h2⟩ := hasFields_of_tuple t fts ws h
    exact ⟨(n, w) :: fs, ⟨w, fs, rfl, hw, h1⟩, by rw [List.map_cons, h2]⟩

theorem hasFields_names (t : Target) : (fts : List (String × Ty)) → (fs : List (String × Val)) →
    HasFields t fts fs → fs.map (·.1) = fts.map (·.1)
  | [], fs, h => by rw [HasFields] at h; subst h; rfl
  | (n, ty) :: fts, fs, h => by
    obtain ⟨w, ws, rfl, -, h⟩ := h
    rw [List.map_cons, List.map_cons, hasFields_names t fts ws h]

theorem zip_map_fst_snd {α β : Type} (l : List (α × β)) : (l.map (·.1)).zip (l.map (·.2)) = l := by
  induction l with
  | nil => rfl
  | cons a l ih => rw [List.map_cons, List.map_cons, List.zip_cons_cons, ih]

theorem hasAll_length (t : Target) : (ts : List Ty) → (vs : List Val) → HasAll t ts vs →
    vs.length = ts.length
  | [], vs, h => by rw [HasAll] at h; subst h; rfl
  | _ :: ts, vs, h => by
    obtain ⟨w, ws, rfl, -, h⟩ := h
    rw [List.length_cons, List.length_cons, hasAll_length t ts ws h]

theorem fieldsSupported_append : (fts gts : List (String × Ty)) → FieldsSupported (fts ++ gts) →
    FieldsSupported fts ∧ FieldsSupported gts
  | [], gts, h => ⟨trivial, h⟩
  | (n, ty) :: fts, gts, h => by
    obtain ⟨h1, h2⟩ := h
    obtain ⟨h3, h4⟩ := fieldsSupported_append fts gts h2
    exact ⟨⟨h1, h3⟩, h4⟩

theorem fields_ok_append : (fs gs : List (String × Val)) → FieldsSerializable fs → FieldsFit fs →
    FieldsSerializable gs → FieldsFit gs →
    FieldsSerializable (fs ++ gs) ∧ FieldsFit (fs ++ gs)
  | [], gs, _, _, h3, h4 => ⟨h3, h4⟩
  | (n, v) :: fs, gs, h1, h2, h3, h4 => by
    obtain ⟨h5, h6⟩ := fields_ok_append fs gs h1.2 h2.2 h3 h4
    exact ⟨⟨h1.1, h5⟩, ⟨h2.1, h6⟩⟩

theorem deFields_append (t : Target) : (fts gts : List (String × Ty)) →
    deFields t (fts ++ gts)
      = (deFields t fts).bind fun fs => (deFields t gts).bind fun gs => .done (.ok (fs ++ gs))
  | [], gts => (Prog.bind_ok _).symm
  | (n, ty) :: fts, gts => by
    rw [List.cons_append, deFields, deFields, deFields_append t fts gts]
    simp only [Prog.bind_eq, Prog.bind_assoc]
    congr

theorem hasVariant_iff (t : Target) (name : String) : (vs : List (String × VTy)) → (k : Nat) →
    (v : Val) → (HasVariant t name k vs v ↔
      ∃ i p, vs[i]? = some p ∧ HasPayload t name (UInt32.ofNat (k + i)) p.1 p.2 v)
  | [], k, v => by simp [HasVariant]
  | (vn, vt) :: vs, k, v => by
    rw [HasVariant, hasVariant_iff t name vs (k + 1)]
    constructor
    · rintro (h | ⟨i, p, h1, h2⟩)
      · exact ⟨0, (vn, vt), rfl, h⟩
      · exact ⟨i + 1, p, by simpa using h1, by rwa [show k + (i + 1) = k + 1 + i by omega]⟩
    · rintro ⟨i, p, h1, h2⟩
      cases i with
      | zero =>
        simp only [List.getElem?_cons_zero, Option.some.injEq] at h1
        subst h1
        exact .inl h2
      | succ i => exact .inr ⟨i, p, by simpa using h1, by rwa [show k + 1 + i = k + (i + 1) by omega]⟩

theorem getElem?_at {α : Type} (pre post : List α) (x y : α) (i : Nat) :
    (i = pre.length ∧ (pre ++ x :: post)[i]? = some x ∧ (pre ++ y :: post)[i]? = some y) ∨
    (pre ++ x :: post)[i]? = (pre ++ y :: post)[i]? := by
  rcases Nat.lt_trichotomy i pre.length with h | h | h
  · right; rw [List.getElem?_append_left h, List.getElem?_append_left h]
  · left; subst h; simp
  · right
    rw [List.getElem?_append_right (by omega), List.getElem?_append_right (by omega)]
    obtain ⟨j, hj⟩ : ∃ j, i - pre.length = j + 1 := ⟨i - pre.length - 1, by omega⟩
    simp [hj]

/-- A value of an enum one variant of which has changed. -/
theorem hasVariant_at (t : Target) (name : String) (pre post : List (String × VTy))
    (vn vn' : String) (p q : VTy)
    (h : ∀ i v, HasPayload t name i vn p v → ∃ w, HasPayload t name i vn' q w ∧ Same v w) (v : Val)
    (hv : Has t (.enum name (pre ++ (vn, p) :: post)) v) :
    ∃ w, Has t (.enum name (pre ++ (vn', q) :: post)) w ∧ Same v w := by
  rw [Has, hasVariant_iff] at hv
  obtain ⟨i, x, h1, h2⟩ := hv
  rcases getElem?_at pre post (vn, p) (vn', q) i with ⟨rfl, e1, e2⟩ | e
  · rw [e1, Option.some.injEq] at h1
    subst h1
    obtain ⟨w, hw, hs⟩ := h _ v h2
    exact ⟨w, by rw [Has, hasVariant_iff]; exact ⟨_, _, e2, hw⟩, hs⟩
  · exact ⟨v, by rw [Has, hasVariant_iff]; exact ⟨i, x, by rw [← e]; exact h1, h2⟩, .refl v⟩

theorem hasPayload_tuple (t : Target) (name : String) (i : UInt32) (vn : String) {p q : VTy}
    (h : PayloadAlike p q) (v : Val) (hv : HasPayload t name i vn p v) :
    ∃ w, HasPayload t name i vn q w ∧ Same v w := by
  cases h with
  | unit =>
    rw [HasPayload] at hv; subst hv
    exact ⟨.tupleVariant name i vn [], ⟨[], rfl, rfl⟩, (Same.unitVariant name i vn).trans
      ((Same.single (.u32 i)).symm.trans (Same.tupleVariant name i vn []).symm)⟩
  | newtype ty =>
    obtain ⟨w, rfl, hw⟩ := hv
    exact ⟨.tupleVariant name i vn [w], ⟨[w], rfl, w, [], rfl, hw, rfl⟩,
      (Same.newtypeVariant name i vn w).trans (Same.tupleVariant name i vn [w]).symm⟩
  | struct fs =>
    obtain ⟨ws, rfl, hw⟩ := hv
    exact ⟨.tupleVariant name i vn (ws.map (·.2)), ⟨_, rfl, hasFields_tuple t fs ws hw⟩,
      (Same.structVariant name i vn ws).trans (Same.tupleVariant name i vn _).symm⟩

theorem hasPayload_of_tuple (t : Target) (name : String) (i : UInt32) (vn : String) {p q : VTy}
    (h : PayloadAlike p q) (v : Val) (hv : HasPayload t name i vn q v) :
    ∃ w, HasPayload t name i vn p w ∧ Same v w := by
  cases h with
  | unit =>
    obtain ⟨vs, rfl, hv⟩ := hv
    rw [HasAll] at hv; subst hv
    exact ⟨.unitVariant name i vn, rfl, ((Same.unitVariant name i vn).trans
      ((Same.single (.u32 i)).symm.trans (Same.tupleVariant name i vn []).symm)).symm⟩
  | newtype ty =>
    obtain ⟨vs, rfl, w, ws, rfl, hw, h⟩ := hv
    rw [HasAll] at h; subst h
    exact ⟨.newtypeVariant name i vn w, ⟨w, rfl, hw⟩,
      ((Same.newtypeVariant name i vn w).trans (Same.tupleVariant name i vn [w]).symm).symm⟩
  | struct fs =>
    obtain ⟨vs, rfl, hw⟩ := hv
    obtain ⟨ws, h1, rfl⟩ := hasFields_of_tuple t fs vs hw
    exact ⟨.structVariant name i vn ws, ⟨_, rfl, h1⟩,
      ((Same.structVariant name i vn ws).trans (Same.tupleVariant name i vn _).symm).symm⟩

theorem hasPayload_rename (t : Target) (name name' : String) (i : UInt32) (vn : String) (p : VTy)
    (v : Val) (hv : HasPayload t name i vn p v) :
    ∃ w, HasPayload t name' i vn p w ∧ Same v w := by
  cases p with
  | unit =>
    rw [HasPayload] at hv; subst hv
    exact ⟨_, rfl, (Same.unitVariant name i vn).trans (Same.unitVariant name' i vn).symm⟩
  | newtype ty =>
    obtain ⟨w, rfl, hw⟩ := hv
    exact ⟨_, ⟨w, rfl, hw⟩,
      (Same.newtypeVariant name i vn w).trans (Same.newtypeVariant name' i vn w).symm⟩
  | tuple ts =>
    obtain ⟨w, rfl, hw⟩ := hv
    exact ⟨_, ⟨w, rfl, hw⟩,
      (Same.tupleVariant name i vn w).trans (Same.tupleVariant name' i vn w).symm⟩
  | struct fs =>
    obtain ⟨w, rfl, hw⟩ := hv
    exact ⟨_, ⟨w, rfl, hw⟩,
      (Same.structVariant name i vn w).trans (Same.structVariant name' i vn w).symm⟩

theorem small_lt (t : Target) {n : Nat} (h : n < 2 ^ 32) : n < 2 ^ t.ptr.bits := by
  cases t.ptr
  · exact h
  · exact Nat.lt_trans h (by decide)

/-- After a change of a type every value of the old type is, as the same data, a
value of the new one. -/
theorem Becomes.has {old new : Ty} (h : Becomes old new) (t : Target) :
    ∀ v, Has t old v → ∃ w, Has t new w ∧ Same v w := by
  induction h with
  | refl ty => exact fun v hv => ⟨v, hv, .refl v⟩
  | trans _ _ ih1 ih2 =>
    intro v hv
    obtain ⟨w, hw, h1⟩ := ih1 v hv
    obtain ⟨x, hx, h2⟩ := ih2 w hw
    exact ⟨x, hx, h1.trans h2⟩
  | bool_u8 => rintro v ⟨b, rfl⟩; exact ⟨_, ⟨_, rfl⟩, .bool_u8 b⟩
  | i8_u8 => rintro v ⟨x, rfl⟩; exact ⟨_, ⟨_, rfl⟩, .i8_u8 x⟩
  | u8_i8 =>
    rintro v ⟨x, rfl⟩
    have := (Same.i8_u8 x.toInt8).symm
    rw [show x.toInt8.toUInt8 = x from rfl] at this
    exact ⟨_, ⟨_, rfl⟩, this⟩
  | char_string =>
    rintro v ⟨c, rfl⟩
    exact ⟨_, ⟨_, rfl, small_lt t (Nat.lt_of_le_of_lt (Ser.length_utf8_singleton c) (by decide))⟩,
      .char_str c⟩
  | string_bytes => rintro v ⟨s, rfl, h⟩; exact ⟨_, ⟨_, rfl, h⟩, .str_bytes s⟩
  | bytes_vec =>
    rintro v ⟨bs, rfl, h⟩
    have := Same.bytes_seq bs
    refine ⟨_, ⟨bs.map .u8, by rw [List.length_map], by simpa using h, ?_⟩, this⟩
    intro w hw
    obtain ⟨b, -, rfl⟩ := List.mem_map.mp hw
    exact ⟨b, rfl⟩
  | vec_bytes =>
    rintro v ⟨vs, rfl, h, hv⟩
    obtain ⟨bs, rfl⟩ : ∃ bs : List UInt8, vs = bs.map .u8 := by
      clear h
      induction vs with
      | nil => exact ⟨[], rfl⟩
      | cons w ws ih =>
        obtain ⟨b, rfl⟩ := hv w (by simp)
        obtain ⟨bs, rfl⟩ := ih fun v hm => hv v (by simp [hm])
        exact ⟨b :: bs, rfl⟩
    have := (Same.bytes_seq bs).symm
    rw [List.length_map] at h ⊢
    exact ⟨_, ⟨bs, rfl, h⟩, this⟩
  | wrap name ty => exact fun v hv => ⟨_, ⟨v, rfl, hv⟩, (Same.newtype name v).symm⟩
  | unwrap name ty => rintro v ⟨w, rfl, hw⟩; exact ⟨w, hw, .newtype name w⟩
  | single ty => exact fun v hv => ⟨_, ⟨[v], rfl, v, [], rfl, hv, rfl⟩, (Same.single v).symm⟩
  | unsingle ty =>
    rintro v ⟨vs, rfl, w, ws, rfl, hw, h⟩
    rw [HasAll] at h; subst h
    exact ⟨w, hw, .single w⟩
  | unit_struct name => rintro v rfl; exact ⟨_, rfl, (Same.unitStruct name).symm⟩
  | struct_unit name => rintro v rfl; exact ⟨_, rfl, Same.unitStruct name⟩
  | unit_tuple => rintro v rfl; exact ⟨_, ⟨[], rfl, rfl⟩, .unit_tuple⟩
  | tuple_unit =>
    rintro v ⟨vs, rfl, h⟩
    rw [HasAll] at h; subst h
    exact ⟨.unit, rfl, Same.unit_tuple.symm⟩
  | tupleStruct_tuple name ts =>
    rintro v ⟨vs, rfl, h⟩; exact ⟨_, ⟨vs, rfl, h⟩, .tupleStruct name vs⟩
  | tuple_tupleStruct name ts =>
    rintro v ⟨vs, rfl, h⟩; exact ⟨_, ⟨vs, rfl, h⟩, (Same.tupleStruct name vs).symm⟩
  | struct_tuple name fts =>
    rintro v ⟨fs, rfl, h⟩; exact ⟨_, ⟨_, rfl, hasFields_tuple t fts fs h⟩, .struct name fs⟩
  | tuple_struct name fts =>
    rintro v ⟨vs, rfl, h⟩
    obtain ⟨fs, h1, rfl⟩ := hasFields_of_tuple t fts vs h
    exact ⟨_, ⟨fs, rfl, h1⟩, (Same.struct name fs).symm⟩
  | nest pre ts post =>
    rintro v ⟨vs, rfl, h⟩
    rw [hasAll_append] at h
    obtain ⟨xy, c, rfl, h, hc⟩ := h
    rw [hasAll_append] at h
    obtain ⟨a, b, rfl, ha, hb⟩ := h
    exact ⟨_, ⟨a ++ .tuple b :: c, rfl, (hasAll_append t _ _ _).mpr
      ⟨a, _, rfl, ha, _, c, rfl, ⟨b, rfl, hb⟩, hc⟩⟩, (Same.nested a b c).symm⟩
  | unnest pre ts post =>
    rintro v ⟨vs, rfl, h⟩
    rw [hasAll_append] at h
    obtain ⟨a, _, rfl, ha, _, c, rfl, ⟨b, rfl, hb⟩, hc⟩ := h
    exact ⟨_, ⟨a ++ b ++ c, rfl, (hasAll_append t _ _ _).mpr
      ⟨a ++ b, c, rfl, (hasAll_append t _ _ _).mpr ⟨a, b, rfl, ha, hb⟩, hc⟩⟩, Same.nested a b c⟩
  | map_vec kt vt =>
    rintro v ⟨es, rfl, h, he⟩
    refine ⟨_, ⟨es.map fun e => .tuple [e.1, e.2], by rw [List.length_map], by simpa using h, ?_⟩,
      .map _ es⟩
    intro w hw
    obtain ⟨e, hm, rfl⟩ := List.mem_map.mp hw
    exact ⟨_, rfl, _, _, rfl, (he e hm).1, _, _, rfl, (he e hm).2, rfl⟩
  | vec_map kt vt =>
    rintro v ⟨vs, rfl, h, hv⟩
    obtain ⟨es, rfl, he⟩ : ∃ es : List (Val × Val), vs = es.map (fun e => .tuple [e.1, e.2]) ∧
        ∀ e ∈ es, Has t kt e.1 ∧ Has t vt e.2 := by
      clear h
      induction vs with
      | nil => exact ⟨[], rfl, by simp⟩
      | cons w ws ih =>
        obtain ⟨_, rfl, a, _, rfl, ha, b, _, rfl, hb, hn⟩ := hv w (by simp)
        rw [HasAll] at hn; subst hn
        obtain ⟨es, rfl, he⟩ := ih fun v hm => hv v (by simp [hm])
        exact ⟨(a, b) :: es, rfl, by simpa using ⟨⟨ha, hb⟩, fun x y hm => he (x, y) hm⟩⟩
    rw [List.length_map] at h ⊢
    exact ⟨_, ⟨es, rfl, h, he⟩, (Same.map _ es).symm⟩
  | append name vs more =>
    intro v hv
    refine ⟨v, ?_, .refl v⟩
    rw [Has, hasVariant_iff] at hv ⊢
    obtain ⟨i, p, h1, h2⟩ := hv
    exact ⟨i, p, by rw [List.getElem?_append_left (List.getElem?_eq_some_iff.mp h1).1]; exact h1, h2⟩
  | renameEnum name name' vs =>
    intro v hv
    rw [Has, hasVariant_iff] at hv
    obtain ⟨i, p, h1, h2⟩ := hv
    obtain ⟨w, hw, hs⟩ := hasPayload_rename t name name' _ _ _ v h2
    exact ⟨w, by rw [Has, hasVariant_iff]; exact ⟨i, p, h1, hw⟩, hs⟩
  | variantAt name pre post vn vn' ts us _ ih =>
    refine hasVariant_at t name pre post vn vn' _ _ fun i v hv => ?_
    obtain ⟨vs, rfl, hv⟩ := hv
    obtain ⟨w, ⟨ws, rfl, hw⟩, hs⟩ := ih (.tuple vs) ⟨vs, rfl, hv⟩
    exact ⟨_, ⟨ws, rfl, hw⟩, (Same.tupleVariant name i vn vs).trans
      ((Same.tupleCons (.u32 i) hs).trans (Same.tupleVariant name i vn' ws).symm)⟩
  | payload_tuple name pre post vn p q h =>
    exact hasVariant_at t name pre post vn vn _ _ fun i v hv => hasPayload_tuple t name i vn h v hv
  | tuple_payload name pre post vn p q h =>
    exact hasVariant_at t name pre post vn vn _ _ fun i v hv =>
      hasPayload_of_tuple t name i vn h v hv
  | option _ ih =>
    rintro v (rfl | ⟨w, rfl, hw⟩)
    · exact ⟨.none, .inl rfl, .refl _⟩
    · obtain ⟨x, hx, hs⟩ := ih w hw
      exact ⟨_, .inr ⟨x, rfl, hx⟩, hs.some⟩
  | seq _ ih =>
    rintro v ⟨vs, rfl, h, hv⟩
    obtain ⟨ws, h1, h2, h3⟩ := Same.seqAll ih (some vs.length) vs [] hv
    exact ⟨_, ⟨ws, rfl, by rw [h1]; exact h, h2⟩, by rw [h1]; exact h3⟩
  | tupleAt pre post _ ih =>
    rintro v ⟨vs, rfl, h⟩
    rw [hasAll_append] at h
    obtain ⟨a, _, rfl, ha, b, c, rfl, hb, hc⟩ := h
    obtain ⟨w, hw, hs⟩ := ih b hb
    exact ⟨_, ⟨a ++ w :: c, rfl, (hasAll_append t _ _ _).mpr ⟨a, _, rfl, ha, w, c, rfl, hw, hc⟩⟩,
      .tupleAt a c b w hs⟩

end Dlhn.Spec
