import Verif.Proof.Least
/-!
# The size of decoded values of derived types
-/
namespace Dlhn.Derive

open Spec hiding variantFields
open De
open Prog (Yields)

/-- At most `P` parts for every byte, and at most `P` for no bytes. -/
abbrev Within (P : Nat) (s n : Nat) : Prop := s ≤ P * max n 1

theorem Within.wider {P Q s n m : Nat} (h : Within P s n) (hP : P ≤ Q) (hn : n ≤ m) :
    Within Q s m := Nat.le_trans h (Nat.mul_le_mul hP (by omega))

theorem Within.add {P Q s u n m : Nat} (h : Within P s n) (h' : Within Q u m) :
    Within (P + Q) (s + u) (n + m) := by
  have a := h.wider (Nat.le_refl P) (Nat.le_add_right n m)
  have b := h'.wider (Nat.le_refl Q) (Nat.le_add_left m n)
  show _ ≤ _
  rw [Nat.add_mul]
  exact Nat.add_le_add a b

theorem Within.succ {P s n : Nat} (h : Within P s n) : Within (P + 1) (1 + s) n := by
  show _ ≤ _
  have : s ≤ P * max n 1 := h
  rw [Nat.add_mul]
  omega

theorem Within.leaf {s n : Nat} (h : s ≤ max n 1) : Within 1 s n := by
  show _ ≤ _
  omega

theorem sum_insert {α : Type} (w : String × α → Nat)
    (ins : String → α → List (String × α) → List (String × α))
    (h : ∀ k v m, ((ins k v m).map w).sum ≤ (m.map w).sum + w (k, v)) (es m : List (String × α)) :
    ((es.foldl (fun m e => ins e.1 e.2 m) m).map w).sum ≤ (m.map w).sum + (es.map w).sum := by
  induction es generalizing m with
  | nil => simp
  | cons e es ih =>
    obtain ⟨k, v⟩ := e
    have h1 := ih (ins k v m)
    have h2 := h k v m
    simp only [List.foldl_cons, List.map_cons, List.sum_cons]
    omega

theorem sum_btree {α : Type} (w : String × α → Nat) (es : List (String × α)) :
    ((collectBTree es).map w).sum ≤ (es.map w).sum := by
  have := sum_insert w btreeInsert ?_ es []
  · simpa [collectBTree] using this
  · intro k v m
    induction m with
    | nil => simp [btreeInsert]
    | cons e m ih =>
      obtain ⟨k', v'⟩ := e
      rcases btreeInsert_cons k v k' v' m with ⟨_, h⟩ | ⟨_, h⟩ | ⟨rfl, h⟩ <;> rw [h] <;>
        simp at ih ⊢ <;> omega

theorem sum_hash {α : Type} (w : String × α → Nat) (es : List (String × α)) :
    ((collectHash es).map w).sum ≤ (es.map w).sum := by
  have := sum_insert w hashInsert ?_ es []
  · simpa [collectHash] using this
  · intro k v m
    induction m with
    | nil => simp [hashInsert]
    | cons e m ih =>
      obtain ⟨k', v'⟩ := e
      rw [hashInsert]
      split <;> simp at ih ⊢ <;> omega

theorem size_times {α : Type} {t : Target} {p : Prog DeErr α} {w : α → Nat} {P : Nat}
    (hp : Yields t p fun a n => w a ≤ P * n) (k : Nat) :
    Yields t (times k p) fun as n => (as.map w).sum ≤ P * n := by
  induction k with
  | zero => exact .done_ok (by simp)
  | succ k ih =>
    exact hp.bind fun a n hn => yields_wrap ih _ fun as m hm => by
      simp only [List.map_cons, List.sum_cons]
      rw [Nat.mul_add]
      omega

theorem size_entries {α : Type} {t : Target} {p : Prog DeErr α} {w : α → Nat} {P : Nat}
    (hp : Yields t p fun a n => Within P (w a) n) (k : Nat) :
    Yields t (deEntries t p k) fun es n =>
      (es.map fun e => 1 + (utf8 e.1).length + w e.2).sum ≤ (P + 1) * n := by
  induction k with
  | zero => exact .done_ok (by simp)
  | succ k ih =>
    refine (yields_string t).bind fun s a hs => hp.bind fun v b hv =>
      yields_wrap ih _ fun es m hm => ?_
    have h1 := block_length (utf8 s)
    have h2 : w v ≤ P * (a + b) := Nat.le_trans hv (Nat.mul_le_mul_left _ (by omega))
    simp only [List.map_cons, List.sum_cons]
    rw [← Nat.add_assoc, Nat.mul_add (P + 1), Nat.add_mul P]
    omega

theorem size_vecU8 (t : Target) : Yields t (deVecU8 t) fun bs n => 1 + bs.length ≤ n :=
  (Body.yields_vecU8 t).mono fun bs n hn => by have := block_length bs; omega

mutual
theorem size_ty (t : Target) (mode : BuildMode) (env : Env) (ho : FairOrder env) :
    (T : RTy) → DenseRead T →
    Yields t (deTy t mode env T) fun v n => Within (readParts T).length (readSize T v) n
  | .unit, _ => (Yields.any _).mono fun _ n _ => .leaf (by simp only [readSize]; omega)
  | .bool, _ => (Yields.any _).mono fun _ n _ => .leaf (by simp only [readSize]; omega)
  | .u8, _ => (Yields.any _).mono fun _ n _ => .leaf (by simp only [readSize]; omega)
  | .u16, _ => (Yields.any _).mono fun _ n _ => .leaf (by simp only [readSize]; omega)
  | .u32, _ => (Yields.any _).mono fun _ n _ => .leaf (by simp only [readSize]; omega)
  | .u64, _ => (Yields.any _).mono fun _ n _ => .leaf (by simp only [readSize]; omega)
  | .i8, _ => (Yields.any _).mono fun _ n _ => .leaf (by simp only [readSize]; omega)
  | .i16, _ => (Yields.any _).mono fun _ n _ => .leaf (by simp only [readSize]; omega)
  | .i32, _ => (Yields.any _).mono fun _ n _ => .leaf (by simp only [readSize]; omega)
  | .i64, _ => (Yields.any _).mono fun _ n _ => .leaf (by simp only [readSize]; omega)
  | .f32, _ => (Yields.any _).mono fun _ n _ => .leaf (by simp only [readSize]; omega)
  | .f64, _ => (Yields.any _).mono fun _ n _ => .leaf (by simp only [readSize]; omega)
  | .numBigUint, _ => (Yields.any _).mono fun _ n _ => .leaf (by simp only [readSize]; omega)
  | .numBigInt, _ => (Yields.any _).mono fun _ n _ => .leaf (by simp only [readSize]; omega)
  | .numBigDecimal, _ => (Yields.any _).mono fun _ n _ => .leaf (by simp only [readSize]; omega)
  | .str, _ => (Yields.any _).mono fun _ n _ => .leaf (by simp only [readSize]; omega)
  | .bytes, _ => (Yields.any _).mono fun _ n _ => .leaf (by simp only [readSize]; omega)
  | .date, _ => (Yields.any _).mono fun _ n _ => .leaf (by simp only [readSize]; omega)
  | .timeDate, _ => (Yields.any _).mono fun _ n _ => .leaf (by simp only [readSize]; omega)
  | .dateTime, _ => (Yields.any _).mono fun _ n _ => .leaf (by simp only [readSize]; omega)
  | .offsetDateTime, _ => (Yields.any _).mono fun _ n _ => .leaf (by simp only [readSize]; omega)
  | .union _, _ => (Yields.any _).mono fun _ n _ => .leaf (by simp only [readSize]; omega)
  | .foreign, _ => (Yields.any _).mono fun _ n _ => .leaf (by simp only [readSize]; omega)
  | .struct _ .unit, _ => (Yields.any _).mono fun _ n _ => .leaf (by simp only [readSize]; omega)
  | .bigUint, _ => by
    rw [deTy]
    exact yields_wrap (size_vecU8 t) _ fun bs n hn => .leaf (by simp only [readSize]; omega)
  | .bigInt, _ => by
    rw [deTy]
    exact yields_wrap (size_vecU8 t) _ fun bs n hn => .leaf (by simp only [readSize]; omega)
  | .bigDecimal, _ => by
    rw [deTy]
    refine (Body.yields_bigDecimal t).mono fun v n hn => .leaf ?_
    have h := hn.1
    rw [decimalWire] at h
    simp only [readSize]
    split at h
    · rename_i h0; simp [h0]; omega
    · have := block_length v.signedBytes
      rw [List.length_append] at h
      omega
  | .string, _ => by
    rw [deTy]
    exact (yields_string t).mono fun s n hn => .leaf (by
      have := block_length (utf8 s); simp only [readSize]; omega)
  | .byteBuf, _ => by
    rw [deTy]
    exact (yields_byteBuf t).mono fun s n hn => .leaf (by
      have := block_length s; simp only [readSize]; omega)
  | .option T, hd => by
    rw [deTy, readParts]
    refine (Body.yields_bool t).bind fun b n hn => ?_
    cases b with
    | false => exact .done_ok (.wider (.leaf (by simp only [readSize]; omega))
        (by simp : 1 ≤ (RTy.option T :: readParts T).length) (by omega : 1 ≤ n + 0))
    | true =>
      exact yields_wrap (size_ty t mode env ho T fun U hU => hd U (by simp [readParts, hU])) _
        fun v m hm => .wider (.succ hm) (by simp) (by omega)
  | .vec T, hd => by
    rw [deTy, readParts]
    refine (least_u64 t).bind fun len n hn => ?_
    have h0 := hd T (by simp [readParts])
    have hT := size_ty t mode env ho T fun U hU => hd U (by simp [readParts, hU])
    have hp : Yields t (deTy t mode env T) fun v n =>
        readSize T v ≤ (readParts T).length * n := by
      intro fin bs v rest hx
      obtain ⟨n, hn, h1⟩ := hT fin bs v rest hx
      obtain ⟨m, hm, h2⟩ := least_ty t mode env T fin bs v rest hx
      obtain rfl : n = m := by omega
      refine ⟨n, hn, ?_⟩
      rwa [Within, Nat.max_eq_left (by omega)] at h1
    refine (size_times hp (t.asUsize len)).mono fun vs m hm => ?_
    simp only [readSize]
    refine .succ (Nat.le_trans hm (Nat.mul_le_mul_left _ ?_))
    omega
  | .btreeMap T, hd => by
    rw [deTy, readParts]
    refine (least_u64 t).bind fun len n hn => ?_
    refine yields_wrap (size_entries (size_ty t mode env ho T fun U hU =>
      hd U (by simp [readParts, hU])) (t.asUsize len)) _ fun es m hm => ?_
    have h1 := sum_btree (fun e => 1 + (utf8 e.1).length + readSize T e.2) es
    simp only [readSize, Within, List.length_cons]
    have h2 : ((readParts T).length + 1) * (1 + m) ≤ ((readParts T).length + 1) * max (n + m) 1 :=
      Nat.mul_le_mul_left _ (by omega)
    rw [Nat.mul_add] at h2
    omega
  | .hashMap T, hd => by
    rw [deTy, readParts]
    refine (least_u64 t).bind fun len n hn => ?_
    refine yields_wrap (size_entries (size_ty t mode env ho T fun U hU =>
      hd U (by simp [readParts, hU])) (t.asUsize len)) _ fun es m hm => ?_
    have h1 := sum_hash (fun e => 1 + (utf8 e.1).length + readSize T e.2) es
    have h3 := ((ho (collectHash es)).map
      fun e => 1 + (utf8 e.1).length + readSize T e.2).sum_nat
    simp only [readSize, Within, List.length_cons]
    have h2 : ((readParts T).length + 1) * (1 + m) ≤ ((readParts T).length + 1) * max (n + m) 1 :=
      Nat.mul_le_mul_left _ (by omega)
    rw [Nat.mul_add] at h2
    omega
  | .tuple Ts, hd => by
    rw [deTy, readParts]
    exact (size_tuple t mode env ho Ts fun U hU => hd U (by simp [readParts, hU])).mono
      fun vs n hn => by simp only [readSize]; exact .succ hn
  | .struct _ (.named fs), hd => by
    rw [deTy, readParts]
    exact (size_fields t mode env ho fs fun U hU => hd U (by simp [readParts, hU])).mono
      fun vs n hn => by simp only [readSize]; exact .succ hn
  | .struct _ (.unnamed []), _ =>
    (Yields.any _).mono fun _ n _ => .leaf (by simp only [readSize, readSizeFields]; omega)
  | .struct _ (.unnamed [.mk _ _ T]), hd => by
    rw [deTy, readParts]
    exact yields_wrap (size_ty t mode env ho T fun U hU => hd U (by simp [readParts, hU])) _
      fun v n hn => by simp only [readSize]; exact .succ hn
  | .struct _ (.unnamed (f :: g :: fs)), hd => by
    rw [deTy, readParts]
    · exact (size_fields t mode env ho (f :: g :: fs) fun U hU => hd U (by
        rw [readParts]
        · exact List.mem_cons_of_mem _ hU
        · simp)).mono fun vs n hn => by
          rw [readSize]
          · exact .succ hn
          · simp
    · simp
  | .enum _ vs, hd => by
    rw [deTy, readParts]
    refine (least_u16 t).bind fun i n hn => ?_
    exact (size_variant t mode env ho vs (fun U hU => hd U (by simp [readParts, hU])) i.toNat).mono
      fun v m hm => by
        simp only [readSize]
        exact .wider (.succ hm) (Nat.le_refl _) (by omega)
theorem size_tuple (t : Target) (mode : BuildMode) (env : Env) (ho : FairOrder env) :
    (Ts : List RTy) → (∀ U, .vec U ∈ readPartsAll Ts → 0 < leastRead U) →
    Yields t (deTuple t mode env Ts) fun vs n => Within (readPartsAll Ts).length (readSizeAll Ts vs) n
  | [], _ => (Yields.any _).mono fun _ n _ => by simp [readSizeAll, Within]
  | T :: Ts, hd => by
    rw [deTuple, readPartsAll, List.length_append]
    exact (size_ty t mode env ho T fun U hU => hd U (by simp [readPartsAll, hU])).bind
      fun v n hn => yields_wrap (size_tuple t mode env ho Ts
        fun U hU => hd U (by simp [readPartsAll, hU])) _ fun vs m hm => by
          simp only [readSizeAll]; exact hn.add hm
theorem size_fields (t : Target) (mode : BuildMode) (env : Env) (ho : FairOrder env) :
    (fs : List RField) → (∀ U, .vec U ∈ readPartsFields fs → 0 < leastRead U) →
    Yields t (deFields t mode env fs)
      fun vs n => Within (readPartsFields fs).length (readSizeFields fs vs) n
  | [], _ => (Yields.any _).mono fun _ n _ => by simp [readSizeFields, Within]
  | .mk attrs _ T :: fs, hd => by
    rw [deFields, readPartsFields]
    by_cases h : SkippedDe attrs
    · rw [if_pos ((deSkips_iff attrs).mpr h), if_pos h]
      split
      · exact yields_wrap (size_fields t mode env ho fs
          fun U hU => hd U (by simp [readPartsFields, hU])) _ fun vs m hm => by
            simp only [readSizeFields, if_pos h, List.nil_append, Nat.zero_add]; exact hm
      · exact .done_err
    · rw [if_neg fun h' => h ((deSkips_iff attrs).mp h'), if_neg h, List.length_append]
      exact (size_ty t mode env ho T fun U hU => hd U (by simp [readPartsFields, h, hU])).bind
        fun v n hn => yields_wrap (size_fields t mode env ho fs
          fun U hU => hd U (by simp [readPartsFields, hU])) _ fun vs m hm => by
            simp only [readSizeFields, if_neg h]; exact hn.add hm
theorem size_variant (t : Target) (mode : BuildMode) (env : Env) (ho : FairOrder env) {idx : Nat} :
    (vs : List RVariant) → (∀ U, .vec U ∈ readPartsVariants vs → 0 < leastRead U) → (n : Nat) →
    Yields t (deVariant t mode env idx n vs)
      fun v m => Within (readPartsVariants vs).length (readSizeVariant vs v) m
  | [], _, _ => by rw [deVariant]; exact .done_err
  | .mk attrs vn fields :: vs, hd, n => by
    have later := fun n => size_variant t mode env ho (idx := idx) vs
      (fun U hU => hd U (by simp [readPartsVariants, hU])) n
    have wide : (readPartsVariants vs).length ≤
        (readPartsVariants (.mk attrs vn fields :: vs)).length := by
      rw [readPartsVariants, List.length_append]; omega
    by_cases h : SkippedDe attrs
    · rw [deVariant_skip _ _ _ _ h]
      exact yields_wrap (later n) _ fun v m hm => by
        cases fields <;> (simp only [readSizeVariant]; exact hm.wider wide (Nat.le_refl _))
    · cases n with
      | succ n =>
        rw [deVariant_succ _ _ _ _ h]
        exact yields_wrap (later n) _ fun v m hm => by
          cases fields <;> (simp only [readSizeVariant]; exact hm.wider wide (Nat.le_refl _))
      | zero =>
        rw [deVariant_zero _ _ _ h]
        cases fields with
        | named fs =>
          rw [dePayload]
          exact yields_wrap (size_fields t mode env ho fs fun U hU => hd U (by
            simp [readPartsVariants, readPartsPayload, h, hU])) _ fun v m hm => by
              simp only [readSizeVariant]
              exact hm.wider (by simp [readPartsVariants, readPartsPayload, h]) (Nat.le_refl _)
        | unnamed fs =>
          rw [dePayload]
          exact yields_wrap (size_fields t mode env ho fs fun U hU => hd U (by
            simp [readPartsVariants, readPartsPayload, h, hU])) _ fun v m hm => by
              simp only [readSizeVariant]
              exact hm.wider (by simp [readPartsVariants, readPartsPayload, h]) (Nat.le_refl _)
        | unit =>
          rw [dePayload]
          exact .done_ok (by simp [readSizeVariant, Within])
end

end Dlhn.Derive
