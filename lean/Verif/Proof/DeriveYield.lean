import Verif.Proof.DeriveAgree
import Verif.Proof.BodyYield
/-! # Decoded values of Rust types are fit for re-encoding -/
namespace Dlhn.Derive

open Spec hiding variantFields
open De
open Prog (Yields)

/-- The bytes written, whatever the outcome; nothing if they do not matter. -/
def out (L : Bool) (p : WProg SerErr) : List UInt8 := if L then p.exec.1 else []

theorem out_skip (L : Bool) : (out L .skip).length = 0 := by cases L <;> rfl

theorem out_andThen (L : Bool) (p q : WProg SerErr) :
    (out L (p.andThen q)).length ≤ (out L p).length + (out L q).length := by
  cases L with
  | false => simp [out]
  | true =>
    simp only [out, if_true]
    rw [WProg.exec_andThen]
    cases p.exec with
    | mk o r => cases r <;> simp

theorem out_andThen_skip (L : Bool) (p : WProg SerErr) : out L (p.andThen .skip) = out L p := by
  cases L with
  | false => rfl
  | true =>
    simp only [out, if_true]
    rw [WProg.exec_andThen]
    cases p.exec with
    | mk o r => cases r <;> simp [WProg.exec, WProg.skip]

theorem out_le {L : Bool} {p : WProg SerErr} {n : Nat} {bs : List UInt8} {o : Outcome SerErr Unit}
    (h : p.exec = (bs, o)) (hn : bs.length ≤ n) : (out L p).length ≤ n := by
  cases L with
  | false => simp [out]
  | true => simpa [out, h] using hn

/-- A decoded part is fit for serializing, unless it is a decimal that cannot be
normalised or a buffer that exceeds the memory. -/
def DecodedOk (t : Target) (mode : BuildMode) (p : Σ T, Carrier T) : Prop :=
  (∀ d : Num.Decimal, p = ⟨.numBigDecimal, d⟩ → ScaleFits d) →
    (∀ b : List UInt8, p = ⟨.byteBuf, b⟩ → t.ptr = .w64 ∨ b.length < 2 ^ 32) → ValueOk t mode p

/-- What is shown of a value `v : T` decoded from `n` bytes: it is fit for
serializing, reading it back would give itself, and (if `L`) serializing takes at
most `n` bytes. -/
structure Back (t : Target) (mode : BuildMode) (env : Env) (L : Bool) (T : RTy) (v : Carrier T)
    (n : Nat) : Prop where
  parts : ∀ p ∈ valueParts T v, DecodedOk t mode p
  length : (out L (ser mode T v)).length ≤ n
  again : Returned env T v v

/-- What is asked of one type. -/
structure BackPart (env : Env) (L : Bool) (U : RTy) : Prop where
  ok : TypeOk env U
  shrinks : U = .offsetDateTime ∨ U = .numBigDecimal → L = false

theorem Back.leaf {t : Target} {mode : BuildMode} {env : Env} {L : Bool} {T : RTy} {v : Carrier T}
    {n : Nat} (hp : valueParts T v = [⟨T, v⟩]) (length : (out L (ser mode T v)).length ≤ n)
    (again : Returned env T v v)
    (real : (∀ d : Num.Decimal, (⟨T, v⟩ : Σ T, Carrier T) = ⟨.numBigDecimal, d⟩ → ScaleFits d) →
      (∀ b : List UInt8, (⟨T, v⟩ : Σ T, Carrier T) = ⟨.byteBuf, b⟩ →
        t.ptr = .w64 ∨ b.length < 2 ^ 32) → RealPart t ⟨T, v⟩ := by intro _ _; trivial)
    (date : mode = .debug → ∀ d : Date, (⟨T, v⟩ : Σ T, Carrier T) = ⟨.date, d⟩ → DateFits d := by
      intro _ _ h; exact RTy.noConfusion (congrArg Sigma.fst h))
    (instant : ∀ d : Time.OffsetDateTime, (⟨T, v⟩ : Σ T, Carrier T) = ⟨.offsetDateTime, d⟩ →
      UtcInRange d := by intro _ h; exact RTy.noConfusion (congrArg Sigma.fst h)) :
    Back t mode env L T v n where
  parts p hpp := by
    rw [hp, List.mem_singleton] at hpp
    subst hpp
    exact fun hd hb => ⟨real hd hb, date, instant⟩
  length := length
  again := again

theorem valueOk_node {t : Target} {mode : BuildMode} {T : RTy} {v : Carrier T}
    (real : RealPart t ⟨T, v⟩) (h1 : T ≠ .date) (h2 : T ≠ .offsetDateTime) :
    DecodedOk t mode ⟨T, v⟩ :=
  fun _ _ => ⟨real, fun _ _ h => absurd (congrArg Sigma.fst h) h1, fun _ h => absurd (congrArg Sigma.fst h) h2⟩

/-! ## Leaves -/

theorem shorter_unsigned (bs : List UInt8) :
    (block (BigUint.ofNum (leValue bs)).bytes).length ≤ (block bs).length ∧
      (BigUint.ofNum (leValue bs)).bytes.length ≤ bs.length := by
  have h := (BigUint.shortest (leValue bs)).2 bs rfl
  refine ⟨?_, h⟩
  rw [length_block, length_block]
  have := varintLen_mono 64 h
  omega

theorem shorter_signed (bs : List UInt8) :
    (block (BigInt.ofNum (signedValue bs)).bytes).length ≤ (block bs).length ∧
      (BigInt.ofNum (signedValue bs)).bytes.length ≤ bs.length := by
  have h := (BigInt.shortest (signedValue bs)).2 bs rfl
  refine ⟨?_, h⟩
  rw [length_block, length_block]
  have := varintLen_mono 64 h
  omega

theorem toTime_valid {d : DateTime} {w : Time.OffsetDateTime} (h : d.toTime = .ok w) :
    w.Valid ∧ UtcInRange w ∧ w.offset = 0 := by
  rw [DateTime.toTime] at h
  by_cases hin : firstSecond ≤ d.unixTimestamp.toInt ∧ d.unixTimestamp.toInt ≤ lastSecond
  · rw [fromUnix_some hin.1 hin.2] at h
    simp only [addNanos_spec] at h
    split at h
    · cases h
    · rename_i v hv
      split at hv
      · simp only [Option.some.injEq] at hv
        simp only [Outcome.ok.injEq] at h
        subst h
        subst hv
        have hn := d.nanosecond.toNat_lt
        simp only [Time.OffsetDateTime.Valid, UtcInRange]
        refine ⟨⟨by omega, by omega, by omega, by omega, by omega⟩, ⟨by omega, by omega⟩, trivial⟩
      · cases hv
  · rw [fromUnix_none (by omega)] at h
    cases h

theorem yields_timeDate (t : Target) (mode : BuildMode) :
    Yields t (Format.deDate mode) fun d n =>
      (dateWire ⟨d.year, d.ordinal⟩).length ≤ n ∧ d.Valid := by
  intro fin bs d rest h
  rw [Format.exec_deDate_eq] at h
  cases hx : Prog.exec t fin (Date.de mode) bs with
  | err e => rw [hx] at h; cases h
  | panic p => rw [hx] at h; cases h
  | ok a =>
    obtain ⟨c, r⟩ := a
    obtain ⟨n, hn, hw, -⟩ := Body.yields_date t mode fin bs c r hx
    rw [hx, Prog.next_ok] at h
    cases hc : c.toTime with
    | none => rw [hc] at h; cases h
    | some d' =>
      rw [hc] at h
      cases h
      obtain ⟨rfl, hv⟩ := (fromOrdinalDate_eq_some _ _ _).mp hc
      exact ⟨n, hn, hw, hv⟩

theorem yields_offsetDateTime (t : Target) :
    Yields t Format.deDateTime fun d _ => d.Valid ∧ UtcInRange d ∧ d.offset = 0 := by
  intro fin bs d rest h
  rw [Format.exec_deDateTime_eq] at h
  cases hx : Prog.exec t fin DateTime.de bs with
  | err e => rw [hx] at h; cases h
  | panic p => rw [hx] at h; cases h
  | ok a =>
    obtain ⟨c, r⟩ := a
    obtain ⟨n, hn, -⟩ := Body.yields_dateTime t fin bs c r hx
    rw [hx, Prog.next_ok] at h
    cases hc : c.toTime with
    | err e => rw [hc] at h; cases h
    | panic p => rw [hc] at h; cases h
    | ok d' =>
      rw [hc] at h
      cases h
      exact ⟨n, hn, toTime_valid hc⟩

/-! ## Sequences and maps -/

theorem out_serSeq {α : Type} (L : Bool) (f : α → WProg SerErr) (vs : List α) :
    (out L (serSeq f vs)).length ≤ (vs.map fun v => out L (f v)).flatten.length := by
  induction vs with
  | nil => simp [serSeq, out_skip]
  | cons v vs ih =>
    rw [serSeq]
    have := out_andThen L (f v) (serSeq f vs)
    simp only [List.map_cons, List.flatten_cons, List.length_append]
    omega

/-- The bytes of the entries of a map. -/
def entriesSize {α : Type} (L : Bool) (f : α → WProg SerErr) (es : List (String × α)) : Nat :=
  (es.map fun e => (out L (Ser.serStr e.1)).length + (out L (f e.2)).length).sum

theorem out_serMap {α : Type} (L : Bool) (f : α → WProg SerErr) (es : List (String × α)) :
    (out L (serMap f es)).length ≤ entriesSize L f es := by
  induction es with
  | nil => simp [serMap, out_skip]
  | cons e es ih =>
    obtain ⟨k, v⟩ := e
    rw [serMap]
    have h1 := out_andThen L (Ser.serStr k) ((f v).andThen (serMap f es))
    have h2 := out_andThen L (f v) (serMap f es)
    simp only [entriesSize, List.map_cons, List.sum_cons] at ih ⊢
    omega

theorem entriesSize_perm {α : Type} (L : Bool) (f : α → WProg SerErr) {es es' : List (String × α)}
    (h : es.Perm es') : entriesSize L f es = entriesSize L f es' := (h.map _).sum_nat

theorem lt_bits {t t' : Target} (h : t'.ptr = .w64 ∨ t'.ptr = t.ptr) {k : Nat}
    (hk : k < 2 ^ t.ptr.bits) : k < 2 ^ t'.ptr.bits := by
  rcases h with h | h
  · rw [h]; exact lt_64_of_lt_bits hk
  · rw [h]; exact hk

theorem yields_entries {t : Target} {α : Type} {p : Prog DeErr α} (A : α → Prop)
    (L : Bool) (f : α → WProg SerErr) (hp : Yields t p fun a m => A a ∧ (out L (f a)).length ≤ m)
    (n : Nat) : Yields t (deEntries t p n) fun es m => es.length = n ∧
      (∀ e ∈ es, A e.2 ∧ (utf8 e.1).length < 2 ^ t.ptr.bits) ∧ entriesSize L f es ≤ m := by
  induction n with
  | zero => exact Yields.done_ok (by simp [entriesSize])
  | succ n ih =>
    refine (yields_string t).bind fun k a hk => hp.bind fun v b hv =>
      yields_wrap ih _ fun es m hm => ⟨by simp [hm.1], ?_, ?_⟩
    · intro e he
      rcases List.mem_cons.mp he with rfl | he
      · exact ⟨hv.1, hk.2⟩
      · exact hm.2.1 e he
    · have h1 : (out L (Ser.serStr k)).length ≤ a := out_le (Ser.exec_serStr k (lt_64_of_lt_bits hk.2)) hk.1
      have h2 := hm.2.2
      simp only [entriesSize, List.map_cons, List.sum_cons] at h2 ⊢
      omega

/-- What inserting keeps of the entries. -/
theorem foldl_insert {α : Type} (L : Bool) (f : α → WProg SerErr)
    (ins : String → α → List (String × α) → List (String × α))
    (h1 : ∀ k v m, (ins k v m).length ≤ m.length + 1)
    (h2 : ∀ k v m, entriesSize L f (ins k v m) ≤
      entriesSize L f m + ((out L (Ser.serStr k)).length + (out L (f v)).length))
    (h3 : ∀ k v m, ∀ e ∈ ins k v m, e = (k, v) ∨ e ∈ m) (es m : List (String × α)) :
    (es.foldl (fun m e => ins e.1 e.2 m) m).length ≤ m.length + es.length ∧
    entriesSize L f (es.foldl (fun m e => ins e.1 e.2 m) m) ≤ entriesSize L f m + entriesSize L f es ∧
    ∀ e ∈ es.foldl (fun m e => ins e.1 e.2 m) m, e ∈ m ∨ e ∈ es := by
  induction es generalizing m with
  | nil => simp [entriesSize]
  | cons x es ih =>
    obtain ⟨k, v⟩ := x
    obtain ⟨i1, i2, i3⟩ := ih (ins k v m)
    have := h1 k v m
    have := h2 k v m
    rw [List.foldl_cons]
    show (es.foldl (fun m e => ins e.1 e.2 m) (ins k v m)).length ≤ _ ∧
      entriesSize L f (es.foldl (fun m e => ins e.1 e.2 m) (ins k v m)) ≤ _ ∧
      ∀ e ∈ es.foldl (fun m e => ins e.1 e.2 m) (ins k v m), _
    refine ⟨by rw [List.length_cons]; omega, ?_, fun e he => ?_⟩
    · have hc : entriesSize L f ((k, v) :: es) =
        (out L (Ser.serStr k)).length + (out L (f v)).length + entriesSize L f es := by
        simp [entriesSize]
      rw [hc]
      omega
    · rcases i3 e he with hm | hm
      · rcases h3 k v m e hm with rfl | hm
        · exact .inr List.mem_cons_self
        · exact .inl hm
      · exact .inr (List.mem_cons_of_mem _ hm)

theorem collectBTree_keeps {α : Type} (L : Bool) (f : α → WProg SerErr) (es : List (String × α)) :
    (collectBTree es).length ≤ es.length ∧ entriesSize L f (collectBTree es) ≤ entriesSize L f es ∧
      ∀ e ∈ collectBTree es, e ∈ es := by
  have := foldl_insert L f btreeInsert ?_ ?_ ?_ es []
  · simpa [collectBTree, entriesSize] using this
  · intro k v m
    induction m with
    | nil => simp [btreeInsert]
    | cons e m ih =>
      obtain ⟨k', v'⟩ := e
      rcases btreeInsert_cons k v k' v' m with ⟨_, h⟩ | ⟨_, h⟩ | ⟨rfl, h⟩ <;> rw [h] <;> simp <;> omega
  · intro k v m
    induction m with
    | nil => simp [btreeInsert, entriesSize]
    | cons e m ih =>
      obtain ⟨k', v'⟩ := e
      rcases btreeInsert_cons k v k' v' m with ⟨_, h⟩ | ⟨_, h⟩ | ⟨rfl, h⟩ <;> rw [h] <;>
        simp [entriesSize] at ih ⊢ <;> omega
  · intro k v m
    induction m with
    | nil => simp [btreeInsert]
    | cons e m ih =>
      obtain ⟨k', v'⟩ := e
      intro x hx
      rcases btreeInsert_cons k v k' v' m with ⟨_, h⟩ | ⟨_, h⟩ | ⟨rfl, h⟩ <;> rw [h] at hx
      · simpa using hx
      · rcases List.mem_cons.mp hx with rfl | hx
        · simp
        · rcases ih x hx with h | h <;> simp [h]
      · rcases List.mem_cons.mp hx with rfl | hx
        · simp
        · simp [hx]

theorem collectHash_keeps {α : Type} (L : Bool) (f : α → WProg SerErr) (es : List (String × α)) :
    (collectHash es).length ≤ es.length ∧ entriesSize L f (collectHash es) ≤ entriesSize L f es ∧
      ∀ e ∈ collectHash es, e ∈ es := by
  have := foldl_insert L f hashInsert ?_ ?_ ?_ es []
  · simpa [collectHash, entriesSize] using this
  · intro k v m
    induction m with
    | nil => simp [hashInsert]
    | cons e m ih =>
      obtain ⟨k', v'⟩ := e
      rw [hashInsert]
      split <;> simp <;> omega
  · intro k v m
    induction m with
    | nil => simp [hashInsert, entriesSize]
    | cons e m ih =>
      obtain ⟨k', v'⟩ := e
      rw [hashInsert]
      split
      · rename_i h; subst h; simp [entriesSize]; omega
      · simp [entriesSize] at ih ⊢; omega
  · intro k v m
    induction m with
    | nil => simp [hashInsert]
    | cons e m ih =>
      obtain ⟨k', v'⟩ := e
      intro x hx
      rw [hashInsert] at hx
      split at hx
      · rcases List.mem_cons.mp hx with rfl | hx
        · simp
        · simp [hx]
      · rcases List.mem_cons.mp hx with rfl | hx
        · simp
        · rcases ih x hx with h | h <;> simp [h]

theorem pointwise_self {α : Type} {R : α → α → Prop} : (vs : List α) → (∀ v ∈ vs, R v v) →
    Pointwise R vs vs
  | [], _ => trivial
  | v :: vs, h => ⟨h v (by simp), pointwise_self vs fun v hv => h v (by simp [hv])⟩

theorem collectBTree_sorted {α : Type} (es : List (String × α)) : Ascending (collectBTree es) := by
  have : ∀ (es m : List (String × α)), Ascending m →
      Ascending (es.foldl (fun m e => btreeInsert e.1 e.2 m) m) := by
    intro es
    induction es with
    | nil => exact fun _ h => h
    | cons e es ih => exact fun m h => ih _ (ascending_btreeInsert h _ _)
  exact this es [] List.Pairwise.nil

theorem collectHash_distinct {α : Type} (es : List (String × α)) :
    ((collectHash es).map Prod.fst).Nodup := by
  have : ∀ (es m : List (String × α)), (m.map Prod.fst).Nodup →
      ((es.foldl (fun m e => hashInsert e.1 e.2 m) m).map Prod.fst).Nodup := by
    intro es
    induction es with
    | nil => exact fun _ h => h
    | cons e es ih => exact fun m h => ih _ (nodup_hashInsert h _ _)
  exact this es [] List.nodup_nil

/-- A count takes no more bytes than the larger count that was read. -/
theorem out_hint {L : Bool} {n c k : Nat} (h : n ≤ c) (hc : c < 2 ^ 64) (hk : varintLen 64 c ≤ k) :
    (out L (Ser.serHint (some n))).length ≤ k := by
  refine out_le (Ser.exec_serHint _ (by simpa using Nat.lt_of_le_of_lt h hc)) ?_
  show (varint 64 n).length ≤ k
  rw [length_varint]
  exact Nat.le_trans (varintLen_mono 64 h) hk

/-! ## All types -/

section
variable {t : Target} {mode : BuildMode} {env : Env} {L : Bool}

/-- A node whose own part and children are fine. -/
theorem Back.node {T : RTy} {v : Carrier T} {n : Nat} (own : DecodedOk t mode ⟨T, v⟩)
    {ps : List (Σ T, Carrier T)} (hp : valueParts T v = ⟨T, v⟩ :: ps)
    (parts : ∀ p ∈ ps, DecodedOk t mode p) (length : (out L (ser mode T v)).length ≤ n)
    (again : Returned env T v v) : Back t mode env L T v n where
  parts p h := by
    rw [hp] at h
    rcases List.mem_cons.mp h with rfl | h
    · exact own
    · exact parts p h
  length := length
  again := again
end

mutual
/-- On a 64-bit target every decoded value is fit for re-encoding. -/
theorem yields_ty {t t' : Target} (h : t'.ptr = .w64 ∨ t'.ptr = t.ptr) (mode : BuildMode) (env : Env)
    (ho : FairOrder env) (L : Bool) : (T : RTy) → (∀ U ∈ typeParts T, BackPart env L U) →
    Yields t (deTy t mode env T) (Back t' mode env L T)
  | .unit, _ => by
    rw [deTy]
    exact Yields.done_ok (.leaf (by simp [valueParts]) (by rw [ser, out_skip]; omega)
      (by simp [Returned]))
  | .bool, _ => by
    rw [deTy]
    refine (Body.yields_bool t).mono fun v n hn => .leaf (by simp [valueParts]) ?_ (by simp [Returned])
    rw [ser]
    exact out_le (bs := [if v then 1 else 0]) (o := .ok ()) (by cases v <;> exact Ser.exec_emit _)
      (by simpa using hn)
  | .u8, _ => by
    rw [deTy]
    refine yields_wrap (yields_read t 1) _ fun v n hn =>
      .leaf (by simp [valueParts]) ?_ (by simp [Returned])
    rw [ser]
    exact out_le (Ser.exec_emit _) (by simp [hn])
  | .u16, _ => by
    rw [deTy]
    refine (yields_u16 t).mono fun v n hn => .leaf (by simp [valueParts]) ?_ (by simp [Returned])
    rw [ser]
    exact out_le (Ser.exec_serU16 v) (by rw [length_varint]; exact hn)
  | .u32, _ => by
    rw [deTy]
    refine (yields_u32 t).mono fun v n hn => .leaf (by simp [valueParts]) ?_ (by simp [Returned])
    rw [ser]
    exact out_le (Ser.exec_serU32 v) (by rw [length_varint]; exact hn)
  | .u64, _ => by
    rw [deTy]
    refine (yields_u64 t).mono fun v n hn => .leaf (by simp [valueParts]) ?_ (by simp [Returned])
    rw [ser]
    exact out_le (Ser.exec_serU64 v) (by rw [length_varint]; exact hn)
  | .i8, _ => by
    rw [deTy]
    refine yields_wrap (yields_read t 1) _ fun v n hn =>
      .leaf (by simp [valueParts]) ?_ (by simp [Returned])
    rw [ser]
    exact out_le (Ser.exec_emit _) (by simp [hn])
  | .i16, _ => by
    rw [deTy]
    refine (Body.yields_i16 t).mono fun v n hn => .leaf (by simp [valueParts]) ?_ (by simp [Returned])
    rw [ser]
    exact out_le (Ser.exec_serI16 v) hn
  | .i32, _ => by
    rw [deTy]
    refine (Body.yields_i32 t).mono fun v n hn => .leaf (by simp [valueParts]) ?_ (by simp [Returned])
    rw [ser]
    exact out_le (Ser.exec_serI32 v) hn
  | .i64, _ => by
    rw [deTy]
    refine (Body.yields_i64 t).mono fun v n hn => .leaf (by simp [valueParts]) ?_ (by simp [Returned])
    rw [ser]
    exact out_le (Ser.exec_serI64 v) hn
  | .f32, _ => by
    rw [deTy]
    refine yields_wrap (yields_read t 4) _ fun v n hn =>
      .leaf (by simp [valueParts]) ?_ (by simp [Returned])
    rw [ser]
    exact out_le (Ser.exec_serF32 _) (by rw [length_leBytes]; omega)
  | .f64, _ => by
    rw [deTy]
    refine yields_wrap (yields_read t 8) _ fun v n hn =>
      .leaf (by simp [valueParts]) ?_ (by simp [Returned])
    rw [ser]
    exact out_le (Ser.exec_serF64 _) (by rw [length_leBytes]; omega)
  | .bigUint, _ => by
    rw [deTy]
    refine yields_wrap (Body.yields_vecU8 t) BigUint.mk fun v n hn =>
      .leaf (by simp [valueParts]) ?_ (by simp [Returned]) ?_
    · rw [ser]
      exact out_le (BigUint.exec_ser ⟨v⟩ (lt_64_of_lt_bits hn.2)) hn.1
    · intro _ _; simp only [RealPart]; exact lt_bits h hn.2
  | .numBigUint, _ => by
    rw [deTy]
    refine yields_wrap (Body.yields_vecU8 t) Num.fromBytesLe fun v n hn => ?_
    rw [Num.fromBytesLe_eq]
    obtain ⟨h1, h2⟩ := shorter_unsigned v
    refine .leaf (by simp [valueParts]) ?_ (by simp [Returned]) ?_
    · rw [ser, Format.serBigUint_eq]
      exact out_le (BigUint.exec_ser _ (lt_64_of_lt_bits (Nat.lt_of_le_of_lt h2 hn.2))) (by omega)
    · exact fun _ _ => ⟨_, BigUint.shortest _, lt_bits h (Nat.lt_of_le_of_lt h2 hn.2)⟩
  | .bigInt, _ => by
    rw [deTy]
    refine yields_wrap (Body.yields_vecU8 t) BigInt.mk fun v n hn =>
      .leaf (by simp [valueParts]) ?_ (by simp [Returned]) ?_
    · rw [ser]
      exact out_le (BigInt.exec_ser ⟨v⟩ (lt_64_of_lt_bits hn.2)) hn.1
    · intro _ _; simp only [RealPart]; exact lt_bits h hn.2
  | .numBigInt, _ => by
    rw [deTy]
    refine yields_wrap (Body.yields_vecU8 t) Num.fromSignedBytesLe fun v n hn => ?_
    rw [Num.fromSignedBytesLe_eq]
    obtain ⟨h1, h2⟩ := shorter_signed v
    refine .leaf (by simp [valueParts]) ?_ (by simp [Returned]) ?_
    · rw [ser, Format.serBigInt_eq]
      exact out_le (BigInt.exec_ser _ (lt_64_of_lt_bits (Nat.lt_of_le_of_lt h2 hn.2))) (by omega)
    · exact fun _ _ => ⟨_, BigInt.shortest _, lt_bits h (Nat.lt_of_le_of_lt h2 hn.2)⟩
  | .bigDecimal, _ => by
    rw [deTy]
    refine (Body.yields_bigDecimal t).mono fun v n hn => .leaf (by simp [valueParts]) ?_ ?_ ?_
    · rw [ser]
      exact out_le (BigDecimal.exec_ser v (lt_64_of_lt_bits hn.2.1)) hn.1
    · rw [Returned]
      split
      · rename_i h0
        cases v
        simp only at h0
        have := hn.2.2 h0
        simp_all
      · rfl
    · intro _ _; simp only [RealPart]; exact lt_bits h hn.2.1
  | .numBigDecimal, hT => by
    rw [deTy]
    have hL := (hT _ (self_mem_typeParts _)).shrinks (.inr rfl)
    refine (Body.yields_vecU8 t).bind fun bs n hn => ?_
    have key : ∀ (scale : Int64) (m : Nat), Back t' mode env L .numBigDecimal
        (⟨Num.fromSignedBytesLe bs, scale⟩ : Num.Decimal) m := by
      intro scale m
      refine .leaf (by simp [valueParts]) (by simp [out, hL]) (by rw [Returned]; exact Num.same_refl _)
        fun hd _ => ⟨⟨(BigInt.ofNum (signedValue bs)).bytes, ?_, ?_⟩, hd _ rfl⟩
      · rw [Num.fromSignedBytesLe_eq]; exact BigInt.shortest _
      · exact lt_bits h (Nat.lt_of_le_of_lt (shorter_signed bs).2 hn.2)
    dsimp only
    split
    · exact Yields.done_ok (key _ _)
    · exact yields_wrap (Body.yields_i64 t) _ fun scale m _ => key _ _
  | .str, hT => (hT _ (self_mem_typeParts _)).ok.1.elim
  | .bytes, hT => (hT _ (self_mem_typeParts _)).ok.1.elim
  | .string, _ => by
    rw [deTy]
    refine (yields_string t).mono fun v n hn => .leaf (by simp [valueParts]) ?_ (by simp [Returned]) ?_
    · rw [ser]
      exact out_le (Ser.exec_serStr v (lt_64_of_lt_bits hn.2)) hn.1
    · intro _ _; simp only [RealPart]; exact lt_bits h hn.2
  | .byteBuf, _ => by
    rw [deTy]
    refine (yields_byteBuf t).mono fun v n hn => .leaf (by simp [valueParts]) ?_ (by simp [Returned]) ?_
    · rw [ser]
      exact out_le (Ser.exec_serBytes v hn.2.1) hn.1
    · intro _ hb
      simp only [RealPart]
      rcases hb v rfl with hb | hb
      · rw [hb]; exact hn.2.1
      · exact Nat.lt_of_lt_of_le hb (bits_ge t')
  | .date, _ => by
    rw [deTy]
    refine (Body.yields_date t mode).mono fun v n hn =>
      .leaf (by simp [valueParts]) ?_ (by simp [Returned]) (date := fun hd d e => ?_)
    · rw [ser]
      exact out_le (Date.exec_ser mode v hn.2) hn.1
    · cases e
      exact hn.2 hd
  | .timeDate, _ => by
    rw [deTy]
    refine (yields_timeDate t mode).mono fun v n hn =>
      .leaf (by simp [valueParts]) ?_ (by simp [Returned]) fun _ _ => hn.2
    rw [ser]
    exact out_le (Date.exec_ser mode ⟨v.year, v.ordinal⟩ fun _ => ExistingDay.fits hn.2) hn.1
  | .dateTime, _ => by
    rw [deTy]
    refine (Body.yields_dateTime t).mono fun v n hn =>
      .leaf (by simp [valueParts]) ?_ (by simp [Returned])
    rw [ser]
    exact out_le (DateTime.exec_ser v) hn
  | .offsetDateTime, hT => by
    rw [deTy]
    have hL := (hT _ (self_mem_typeParts _)).shrinks (.inl rfl)
    refine (yields_offsetDateTime t).mono fun v n hn =>
      .leaf (by simp [valueParts]) (by simp [out, hL]) (by rw [Returned]; exact ⟨rfl, hn.2.2⟩) (fun _ _ => hn.1)
        (instant := fun d e => ?_)
    cases e
    exact hn.2.1
  | .option T, hT => by
    rw [deTy]
    refine (Body.yields_bool t).bind fun b n hn => ?_
    split
    · refine yields_wrap (yields_ty h mode env ho L T fun U hU => hT U (by simp [typeParts, hU])) _
        fun v m hm => .node (valueOk_node trivial (by simp) (by simp)) (by rw [valueParts]) hm.parts ?_
          (by rw [Returned]; exact ⟨v, rfl, hm.again⟩)
      rw [ser]
      have h1 := out_andThen L (Ser.emit [1]) (ser mode T v)
      have h2 : (out L (Ser.emit [1])).length ≤ 1 := out_le (Ser.exec_emit _) (by simp)
      have h3 := hm.length
      omega
    · refine Yields.done_ok (.node (valueOk_node trivial (by simp) (by simp)) (by rw [valueParts])
        (by simp) ?_ (by rw [Returned]))
      rw [ser]
      exact out_le (Ser.exec_emit _) (by simpa using hn)
  | .vec T, hT => by
    rw [deTy]
    refine (yields_u64 t).bind fun len n hn => ?_
    have hy := yields_times (fun v : Carrier T => (∀ p ∈ valueParts T v, DecodedOk t' mode p) ∧
      Returned env T v v) (fun v => out L (ser mode T v))
      ((yields_ty h mode env ho L T fun U hU => hT U (by simp [typeParts, hU])).mono
        fun v m hm => ⟨⟨hm.parts, hm.again⟩, hm.length⟩) (t.asUsize len)
    refine hy.mono fun vs m hm => ?_
    obtain ⟨h1, h2, h3⟩ := hm
    have hl := asUsize_lt t len
    have hv := Nat.le_trans (varintLen_mono 64 (asUsize_le t len)) hn
    refine .node (valueOk_node ?_ (by simp) (by simp)) (by rw [valueParts]) (fun p hp => ?_) ?_ ?_
    · simp only [RealPart, h1]; exact lt_bits h hl
    · obtain ⟨l, hl, hp⟩ := List.mem_flatten.mp hp
      obtain ⟨v, hv, rfl⟩ := List.mem_map.mp hl
      exact (h2 v hv).1 p hp
    · rw [ser]
      have e1 := out_andThen L (Ser.serHint (some vs.length)) (serSeq (ser mode T) vs)
      have e2 := out_hint (L := L) (n := vs.length) (c := t.asUsize len) (by omega) (lt_64_of_lt_bits hl) hv
      have e3 := out_serSeq L (ser mode T) vs
      omega
    · rw [Returned]
      exact pointwise_self vs fun v hv => (h2 v hv).2
  | .btreeMap T, hT => by
    rw [deTy]
    refine (yields_u64 t).bind fun len n hn => ?_
    have hy := yields_entries (fun v : Carrier T => (∀ p ∈ valueParts T v, DecodedOk t' mode p) ∧
      Returned env T v v) L (ser mode T)
      ((yields_ty h mode env ho L T fun U hU => hT U (by simp [typeParts, hU])).mono
        fun v m hm => ⟨⟨hm.parts, hm.again⟩, hm.length⟩) (t.asUsize len)
    refine yields_wrap hy _ fun es m hm => ?_
    obtain ⟨h1, h2, h3⟩ := hm
    have hl := asUsize_lt t len
    have hv := Nat.le_trans (varintLen_mono 64 (asUsize_le t len)) hn
    obtain ⟨k1, k2, k3⟩ := collectBTree_keeps L (ser mode T) es
    refine .node (valueOk_node ?_ (by simp) (by simp)) (by rw [valueParts]) (fun p hp => ?_) ?_ ?_
    · refine ⟨?_, fun e he => ?_, collectBTree_sorted es⟩
      · exact lt_bits h (Nat.lt_of_le_of_lt k1 (h1 ▸ hl))
      · exact lt_bits h (h2 e (k3 e he)).2
    · obtain ⟨l, hl, hp⟩ := List.mem_flatten.mp hp
      obtain ⟨e, he, rfl⟩ := List.mem_map.mp hl
      exact (h2 e (k3 e he)).1.1 p hp
    · rw [ser]
      have e1 := out_andThen L (Ser.serHint (some (collectBTree es).length))
        (serMap (ser mode T) (collectBTree es))
      have e2 := out_hint (L := L) (n := (collectBTree es).length) (c := t.asUsize len) (by omega) (lt_64_of_lt_bits hl) hv
      have e3 := out_serMap L (ser mode T) (collectBTree es)
      omega
    · rw [Returned]
      exact pointwise_self _ fun e he => ⟨rfl, (h2 e (k3 e he)).1.2⟩
  | .hashMap T, hT => by
    rw [deTy]
    refine (yields_u64 t).bind fun len n hn => ?_
    have hy := yields_entries (fun v : Carrier T => (∀ p ∈ valueParts T v, DecodedOk t' mode p) ∧
      Returned env T v v) L (ser mode T)
      ((yields_ty h mode env ho L T fun U hU => hT U (by simp [typeParts, hU])).mono
        fun v m hm => ⟨⟨hm.parts, hm.again⟩, hm.length⟩) (t.asUsize len)
    refine yields_wrap hy _ fun es m hm => ?_
    obtain ⟨h1, h2, h3⟩ := hm
    have hl := asUsize_lt t len
    have hv := Nat.le_trans (varintLen_mono 64 (asUsize_le t len)) hn
    obtain ⟨k1, k2, k3⟩ := collectHash_keeps L (ser mode T) es
    have hperm := ho (collectHash es)
    rw [← hperm.length_eq] at k1
    rw [← entriesSize_perm L _ hperm] at k2
    have k4 : ∀ e ∈ env.order (collectHash es), e ∈ es := fun e he => k3 e (hperm.mem_iff.mp he)
    refine .node (valueOk_node ?_ (by simp) (by simp)) (by rw [valueParts]) (fun p hp => ?_) ?_ ?_
    · refine ⟨?_, fun e he => ?_, ?_⟩
      · exact lt_bits h (Nat.lt_of_le_of_lt k1 (h1 ▸ hl))
      · exact lt_bits h (h2 e (k4 e he)).2
      · have hd := (hperm.map Prod.fst).nodup_iff.mpr (collectHash_distinct es)
        rw [List.nodup_iff_pairwise_ne, List.pairwise_map] at hd
        exact hd
    · obtain ⟨l, hl, hp⟩ := List.mem_flatten.mp hp
      obtain ⟨e, he, rfl⟩ := List.mem_map.mp hl
      exact (h2 e (k4 e he)).1.1 p hp
    · rw [ser]
      have e1 := out_andThen L (Ser.serHint (some (env.order (collectHash es)).length))
        (serMap (ser mode T) (env.order (collectHash es)))
      have e2 := out_hint (L := L) (n := (env.order (collectHash es)).length) (c := t.asUsize len)
        (by omega) (lt_64_of_lt_bits hl) hv
      have e3 := out_serMap L (ser mode T) (env.order (collectHash es))
      omega
    · rw [Returned]
      exact ⟨_, List.Perm.refl _, pointwise_self _ fun e he => ⟨rfl, (h2 e (k4 e he)).1.2⟩⟩
  | .tuple Ts, hT => by
    rw [deTy]
    refine (yields_tuple h mode env ho L Ts fun U hU => hT U (by simp [typeParts, hU])).mono
      fun vs n hn => .node (valueOk_node trivial (by simp) (by simp)) (by rw [valueParts]) hn.1 ?_ ?_
    · rw [ser]; exact hn.2.1
    · rw [Returned]; exact hn.2.2
  | .struct name (.named fs), hT => by
    have hs := (hT _ (self_mem_typeParts _)).ok
    rw [deTy]
    refine (yields_fields h mode env ho L fs hs.2.1 hs.2.2
      fun U hU => hT U (by simp [typeParts, hU])).mono
      fun vs n hn => .node (valueOk_node trivial (by simp) (by simp)) (by rw [valueParts]) hn.1 ?_ ?_
    · rw [ser]; exact hn.2.1
    · rw [Returned]; exact hn.2.2
  | .struct name (.unnamed fs), hT => by
    have hs := (hT _ (self_mem_typeParts _)).ok
    have hy := yields_fields h mode env ho L fs hs.2.1.1 hs.2.2
      fun U hU => hT U (by simp [typeParts, hU])
    have hd : deTy t mode env (.struct name (.unnamed fs)) = deFields t mode env fs := by
      match fs, hs with
      | [], _ => rw [deTy, deFields]
      | [.mk attrs n T], hs =>
        have hns : ¬ Skipped attrs := hs.2.1.2 rfl (.mk attrs n T) List.mem_cons_self
        have hnd : ¬ SkippedDe attrs := fun h => hns ((hs.2.1.1 (.mk attrs n T) List.mem_cons_self).1.mpr h)
        rw [deTy, deFields, if_neg (by rw [deSkips_iff]; exact hnd), deFields]
        rfl
      | f :: g :: fs, _ => rw [deTy]
    have hw : ∀ vs, out L (ser mode (.struct name (.unnamed fs)) vs) = out L (serFields mode fs vs) := by
      match fs, hs with
      | [], _ => intro vs; rw [ser, serFields]
      | [.mk attrs n T], hs =>
        have hns : ¬ Skipped attrs := hs.2.1.2 rfl (.mk attrs n T) List.mem_cons_self
        rintro ⟨v, ⟨⟩⟩
        rw [ser, serFields, if_neg (by rw [serdeSkips_iff]; exact hns), serFields, out_andThen_skip]
      | f :: g :: fs, _ => intro vs; rw [ser]
    rw [hd]
    refine hy.mono
      fun vs n hn => .node (valueOk_node trivial (by simp) (by simp)) (by rw [valueParts]) hn.1 ?_ ?_
    · rw [hw]; exact hn.2.1
    · rw [Returned]; exact hn.2.2
  | .struct name .unit, _ => by
    rw [deTy]
    exact Yields.done_ok (.leaf (by simp [valueParts]) (by rw [ser, out_skip]; omega)
      (by simp [Returned]))
  | .enum name vs, hT => by
    have hs := (hT _ (self_mem_typeParts _)).ok
    have hlen : vs.length ≤ 16384 := hs.2.1.1
    rw [deTy]
    refine (yields_u16 t).bind fun i n hn => ?_
    refine (yields_variant h mode env ho L vs hs.2.1.2 hs.2.2
      (fun U hU => hT U (by simp [typeParts, hU])) name 0 i.toNat (by omega)).mono fun v m hm => ?_
    obtain ⟨h1, h2, h3, h4⟩ := hm
    refine .node (valueOk_node trivial (by simp) (by simp)) (by rw [valueParts]) h1 ?_ ?_
    · rw [ser]
      have h5 := congrArg List.length (De.varint_32_16 i.toNat (by omega))
      rw [length_varint, length_varint] at h5
      rw [Nat.zero_add] at h2
      omega
    · rw [Returned]; exact h3
  | .union _, hT => (hT _ (self_mem_typeParts _)).ok.1.elim
  | .foreign, hT => (hT _ (self_mem_typeParts _)).ok.1.elim
theorem yields_tuple {t t' : Target} (h : t'.ptr = .w64 ∨ t'.ptr = t.ptr) (mode : BuildMode) (env : Env)
    (ho : FairOrder env) (L : Bool) : (Ts : List RTy) → (∀ U ∈ typePartsAll Ts, BackPart env L U) →
    Yields t (deTuple t mode env Ts) fun vs n => (∀ p ∈ valuePartsAll Ts vs, DecodedOk t' mode p) ∧
      (out L (serTuple mode Ts vs)).length ≤ n ∧ TupleReturned env Ts vs vs
  | [], _ => by
    rw [deTuple]
    exact Yields.done_ok ⟨by simp [valuePartsAll], by rw [serTuple, out_skip]; omega,
      by simp [TupleReturned]⟩
  | T :: Ts, hT => by
    rw [deTuple]
    refine (yields_ty h mode env ho L T fun U hU => hT U (by simp [typePartsAll, hU])).bind
      fun v n hn => yields_wrap
        (yields_tuple h mode env ho L Ts fun U hU => hT U (by simp [typePartsAll, hU])) _
        fun vs m hm => ⟨fun p hp => ?_, ?_, ?_⟩
    · rw [valuePartsAll] at hp
      rcases List.mem_append.mp hp with hp | hp
      · exact hn.parts p hp
      · exact hm.1 p hp
    · rw [serTuple]
      have := out_andThen L (ser mode T v) (serTuple mode Ts vs)
      have := hn.length
      have := hm.2.1
      omega
    · rw [TupleReturned]; exact ⟨hn.again, hm.2.2⟩
theorem yields_fields {t t' : Target} (h : t'.ptr = .w64 ∨ t'.ptr = t.ptr) (mode : BuildMode) (env : Env)
    (ho : FairOrder env) (L : Bool) : (fs : List RField) → SymmetricFields fs →
    DefaultedFields env fs → (∀ U ∈ typePartsFields fs, BackPart env L U) →
    Yields t (deFields t mode env fs) fun vs n =>
      (∀ p ∈ valuePartsFields fs vs, DecodedOk t' mode p) ∧
      (out L (serFields mode fs vs)).length ≤ n ∧ FieldsReturned env fs vs vs
  | [], _, _, _ => by
    rw [deFields]
    exact Yields.done_ok ⟨by simp [valuePartsFields], by rw [serFields, out_skip]; omega,
      by simp [FieldsReturned]⟩
  | .mk attrs name T :: fs, hs, hd, hT => by
    have hy := yields_fields h mode env ho L fs (fun f hf => hs f (by simp [hf]))
      (fun f hf => hd f (by simp [hf])) (fun U hU => hT U (by simp [typePartsFields, hU]))
    have hsym : Skipped attrs ↔ SkippedDe attrs := (hs _ List.mem_cons_self).1
    by_cases hk : Skipped attrs
    · have hk' := hsym.mp hk
      have hex : ∃ w, env.dflt attrs T = some w := hd _ List.mem_cons_self hk'
      obtain ⟨w, hw⟩ := hex
      rw [deFields, if_pos ((deSkips_iff attrs).mpr hk')]
      simp only [hw]
      refine yields_wrap hy _ fun vs m hm => ⟨fun p hp => ?_, ?_, ?_⟩
      · rw [valuePartsFields, if_pos hk, List.nil_append] at hp
        exact hm.1 p hp
      · rw [serFields, if_pos ((serdeSkips_iff attrs).mpr hk)]
        exact hm.2.1
      · rw [FieldsReturned, if_pos hk']; exact ⟨hw, hm.2.2⟩
    · have hk' : ¬ SkippedDe attrs := fun h => hk (hsym.mpr h)
      rw [deFields, if_neg (by rw [deSkips_iff]; exact hk')]
      refine (yields_ty h mode env ho L T fun U hU => hT U (by simp [typePartsFields, hk, hU])).bind
        fun v n hn => yields_wrap hy _ fun vs m hm => ⟨fun p hp => ?_, ?_, ?_⟩
      · rw [valuePartsFields, if_neg hk] at hp
        rcases List.mem_append.mp hp with hp | hp
        · exact hn.parts p hp
        · exact hm.1 p hp
      · rw [serFields, if_neg (by rw [serdeSkips_iff]; exact hk)]
        have := out_andThen L (ser mode T v) (serFields mode fs vs)
        have := hn.length
        have := hm.2.1
        omega
      · rw [FieldsReturned, if_neg hk']; exact ⟨hn.again, hm.2.2⟩
theorem yields_variant {t t' : Target} {idx : Nat} (h : t'.ptr = .w64 ∨ t'.ptr = t.ptr) (mode : BuildMode) (env : Env)
    (ho : FairOrder env) (L : Bool) : (vs : List RVariant) →
    (∀ v ∈ vs, ¬ Skipped (variantAttrs v) ∧ ¬ SkippedDe (variantAttrs v) ∧
      SymmetricFields (Spec.variantFields v)) →
    (∀ v ∈ vs, DefaultedFields env (Spec.variantFields v)) →
    (∀ U ∈ typePartsVariants vs, BackPart env L U) → (name : String) → (i n : Nat) →
    i + vs.length ≤ 2 ^ 32 →
    Yields t (deVariant t mode env idx n vs) fun v m =>
      (∀ p ∈ valuePartsVariant vs v, DecodedOk t' mode p) ∧
      (out L (serVariant mode name i vs v)).length ≤ varintLen 32 (i + n) + m ∧
      VariantReturned env vs v v ∧ n < vs.length
  | [], _, _, _, _, _, _, _ => by rw [deVariant]; exact Yields.done_err
  | .mk attrs vn fields :: vs, hs, hd, hT, name, i, 0, hi => by
    obtain ⟨hk, hk', hsf⟩ := hs _ List.mem_cons_self
    have hdf := hd _ List.mem_cons_self
    have hsk : ¬ serdeSkips attrs = true := by rw [serdeSkips_iff]; exact hk
    have hto : (UInt32.ofNat i).toNat = i := by
      rw [List.length_cons] at hi; rw [UInt32.toNat_ofNat']; omega
    have hidx : (out L (Ser.serU32 (UInt32.ofNat i))).length ≤ varintLen 32 (i + 0) :=
      out_le (Ser.exec_serU32 _) (by rw [length_varint, hto]; exact Nat.le_refl _)
    have hk'' : ¬ SkippedDe attrs := hk'
    rw [deVariant_zero _ _ _ hk'']
    cases fields with
    | named fs =>
      rw [dePayload]
      refine yields_wrap (yields_fields h mode env ho L fs hsf hdf
        (fun U hU => hT U (by simp [typePartsVariants, hU]))) _ fun v m hm =>
          ⟨fun p hp => hm.1 p (by simpa [valuePartsVariant] using hp), ?_, ?_, by simp⟩
      · rw [serVariant, if_neg hsk]
        have := out_andThen L (Ser.serU32 (UInt32.ofNat i)) (serFields mode fs v)
        have := hm.2.1
        show (out L ((Ser.serU32 (UInt32.ofNat i)).andThen (serFields mode fs v))).length ≤ _
        omega
      · rw [VariantReturned]; exact hm.2.2
    | unnamed fs =>
      rw [dePayload]
      refine yields_wrap (yields_fields h mode env ho L fs hsf hdf
        (fun U hU => hT U (by simp [typePartsVariants, hU]))) _ fun v m hm =>
          ⟨fun p hp => hm.1 p (by simpa [valuePartsVariant] using hp), ?_, ?_, by simp⟩
      · rw [serVariant, if_neg hsk]
        have := out_andThen L (Ser.serU32 (UInt32.ofNat i)) (serFields mode fs v)
        have := hm.2.1
        show (out L ((Ser.serU32 (UInt32.ofNat i)).andThen (serFields mode fs v))).length ≤ _
        omega
      · rw [VariantReturned]; exact hm.2.2
    | unit =>
      rw [dePayload]
      refine Yields.done_ok ⟨by simp [valuePartsVariant], ?_, by simp [VariantReturned], by simp⟩
      rw [serVariant, if_neg hsk, out_andThen_skip]
      omega
  | .mk attrs vn fields :: vs, hs, hd, hT, name, i, n + 1, hi => by
    rw [List.length_cons] at hi
    have hk' : ¬ SkippedDe attrs := (hs _ List.mem_cons_self).2.1
    rw [deVariant_succ _ _ _ _ hk']
    refine yields_wrap (yields_variant h mode env ho L vs (fun v hv => hs v (by simp [hv]))
      (fun v hv => hd v (by simp [hv]))
      (fun U hU => hT U (by cases fields <;> simp [typePartsVariants, hU])) name (i + 1) n (by omega))
      _ fun v m hm => ⟨fun p hp => hm.1 p (by
        cases fields <;> simpa [valuePartsVariant] using hp), ?_, ?_, by simpa using hm.2.2.2⟩
    · rw [serVariant, show i + (n + 1) = i + 1 + n by omega]
      exact hm.2.1
    · cases fields <;> (rw [VariantReturned]; exact hm.2.2.1)
end

/-! ## One value comes back -/

theorem pointwise_unique {α β : Type} {R : α → β → Prop} : (vs : List α) → (ws ws' : List β) →
    (∀ v w w', w ∈ ws → w' ∈ ws' → R v w → R v w' → w = w') → Pointwise R vs ws →
    Pointwise R vs ws' → ws = ws'
  | [], [], [], _, _, _ => rfl
  | v :: vs, w :: ws, w' :: ws', h, hp, hp' => by
    rw [h v w w' (by simp) (by simp) hp.1 hp'.1, pointwise_unique vs ws ws'
      (fun v w w' hw hw' => h v w w' (by simp [hw]) (by simp [hw'])) hp.2 hp'.2]

/-- What makes the value that comes back unique. -/
def DeterminedPart (U : RTy) : Prop :=
  SymmetricPart U ∧ U ≠ .numBigDecimal ∧ ∀ V, U ≠ .hashMap V

mutual
theorem returned_unique {t : Target} {mode : BuildMode} (env : Env) : (T : RTy) →
    (∀ U ∈ typeParts T, DeterminedPart U) → (v w w' : Carrier T) →
    (∀ p ∈ valueParts T w, ValueOk t mode p) → (∀ p ∈ valueParts T w', ValueOk t mode p) →
    Returned env T v w → Returned env T v w' → w = w'
  | .unit, _, _, _, _, _, _, _, _ => rfl
  | .bool, _, _, _, _, _, _, h, h' => by simp only [Returned] at h h'; rw [h, h']
  | .u8, _, _, _, _, _, _, h, h' => by simp only [Returned] at h h'; rw [h, h']
  | .u16, _, _, _, _, _, _, h, h' => by simp only [Returned] at h h'; rw [h, h']
  | .u32, _, _, _, _, _, _, h, h' => by simp only [Returned] at h h'; rw [h, h']
  | .u64, _, _, _, _, _, _, h, h' => by simp only [Returned] at h h'; rw [h, h']
  | .i8, _, _, _, _, _, _, h, h' => by simp only [Returned] at h h'; rw [h, h']
  | .i16, _, _, _, _, _, _, h, h' => by simp only [Returned] at h h'; rw [h, h']
  | .i32, _, _, _, _, _, _, h, h' => by simp only [Returned] at h h'; rw [h, h']
  | .i64, _, _, _, _, _, _, h, h' => by simp only [Returned] at h h'; rw [h, h']
  | .f32, _, _, _, _, _, _, h, h' => by simp only [Returned] at h h'; rw [h, h']
  | .f64, _, _, _, _, _, _, h, h' => by simp only [Returned] at h h'; rw [h, h']
  | .bigUint, _, _, _, _, _, _, h, h' => by simp only [Returned] at h h'; rw [h, h']
  | .numBigUint, _, _, _, _, _, _, h, h' => by simp only [Returned] at h h'; rw [h, h']
  | .bigInt, _, _, _, _, _, _, h, h' => by simp only [Returned] at h h'; rw [h, h']
  | .numBigInt, _, _, _, _, _, _, h, h' => by simp only [Returned] at h h'; rw [h, h']
  | .bigDecimal, _, _, _, _, _, _, h, h' => by simp only [Returned] at h h'; rw [h, h']
  | .numBigDecimal, hT, _, _, _, _, _, _, _ => absurd rfl (hT _ (self_mem_typeParts _)).2.1
  | .str, _, _, _, _, _, _, h, h' => by simp only [Returned] at h h'; rw [h, h']
  | .string, _, _, _, _, _, _, h, h' => by simp only [Returned] at h h'; rw [h, h']
  | .bytes, _, _, _, _, _, _, h, h' => by simp only [Returned] at h h'; rw [h, h']
  | .byteBuf, _, _, _, _, _, _, h, h' => by simp only [Returned] at h h'; rw [h, h']
  | .date, _, _, _, _, _, _, h, h' => by simp only [Returned] at h h'; rw [h, h']
  | .timeDate, _, _, _, _, _, _, h, h' => by simp only [Returned] at h h'; rw [h, h']
  | .dateTime, _, _, _, _, _, _, h, h' => by simp only [Returned] at h h'; rw [h, h']
  | .offsetDateTime, _, _, w, w', hw, hw', h, h' => by
    rw [Returned] at h h'
    have n1 : w.nanos < 1000000000 := (hw _ (self_mem_valueParts _ _)).real.1
    have n2 : w'.nanos < 1000000000 := (hw' _ (self_mem_valueParts _ _)).real.1
    have hi : w.instant = w'.instant := h.1.trans h'.1.symm
    have hof : w.offset = w'.offset := h.2.trans h'.2.symm
    obtain ⟨s1, m1, o1⟩ := w
    obtain ⟨s2, m2, o2⟩ := w'
    simp only [Time.OffsetDateTime.instant] at hi n1 n2 hof
    simp only [Time.OffsetDateTime.mk.injEq]
    exact ⟨by omega, by omega, hof⟩
  | .option T, _, none, w, w', _, _, h, h' => by rw [Returned] at h h'; rw [h, h']
  | .option T, hT, some v, w, w', hw, hw', h, h' => by
    rw [Returned] at h h'
    obtain ⟨u, rfl, hu⟩ := h
    obtain ⟨u', rfl, hu'⟩ := h'
    rw [returned_unique env T (fun U hU => hT U (by simp [typeParts, hU])) v u u'
      (fun p hp => hw p (by simp [valueParts, hp])) (fun p hp => hw' p (by simp [valueParts, hp])) hu hu']
  | .vec T, hT, vs, ws, ws', hw, hw', h, h' => by
    rw [Returned] at h h'
    exact pointwise_unique vs ws ws' (fun v w w' hm hm' => returned_unique env T
      (fun U hU => hT U (by simp [typeParts, hU])) v w w'
      (fun p hp => hw p (by
        rw [valueParts]
        exact List.mem_cons_of_mem _ (List.mem_flatten.mpr ⟨_, List.mem_map_of_mem hm, hp⟩)))
      (fun p hp => hw' p (by
        rw [valueParts]
        exact List.mem_cons_of_mem _ (List.mem_flatten.mpr ⟨_, List.mem_map_of_mem hm', hp⟩)))) h h'
  | .btreeMap T, hT, vs, ws, ws', hw, hw', h, h' => by
    rw [Returned] at h h'
    exact pointwise_unique vs ws ws' (fun v w w' hm hm' r r' => Prod.ext (r.1.symm.trans r'.1)
      (returned_unique env T (fun U hU => hT U (by simp [typeParts, hU])) v.2 w.2 w'.2
        (fun p hp => hw p (by
          rw [valueParts]
          exact List.mem_cons_of_mem _ (List.mem_flatten.mpr
            ⟨_, List.mem_map_of_mem (f := fun e => valueParts T e.2) hm, hp⟩)))
        (fun p hp => hw' p (by
          rw [valueParts]
          exact List.mem_cons_of_mem _ (List.mem_flatten.mpr
            ⟨_, List.mem_map_of_mem (f := fun e => valueParts T e.2) hm', hp⟩))) r.2 r'.2)) h h'
  | .hashMap T, hT, _, _, _, _, _, _, _ => absurd rfl ((hT _ (self_mem_typeParts _)).2.2 T)
  | .tuple Ts, hT, vs, ws, ws', hw, hw', h, h' => by
    rw [Returned] at h h'
    exact tupleReturned_unique env Ts (fun U hU => hT U (by simp [typeParts, hU])) vs ws ws'
      (fun p hp => hw p (by simp [valueParts, hp])) (fun p hp => hw' p (by simp [valueParts, hp])) h h'
  | .struct _ (.named fs), hT, vs, ws, ws', hw, hw', h, h' => by
    have hs := hT _ (self_mem_typeParts _)
    rw [Returned] at h h'
    exact fieldsReturned_unique env fs hs.1 (fun U hU => hT U (by simp [typeParts, hU])) vs ws ws'
      (fun p hp => hw p (by simp [valueParts, hp])) (fun p hp => hw' p (by simp [valueParts, hp])) h h'
  | .struct _ (.unnamed fs), hT, vs, ws, ws', hw, hw', h, h' => by
    have hs := hT _ (self_mem_typeParts _)
    rw [Returned] at h h'
    exact fieldsReturned_unique env fs hs.1.1 (fun U hU => hT U (by simp [typeParts, hU])) vs ws ws'
      (fun p hp => hw p (by simp [valueParts, hp])) (fun p hp => hw' p (by simp [valueParts, hp])) h h'
  | .struct _ .unit, _, _, _, _, _, _, _, _ => rfl
  | .enum _ vs, hT, v, w, w', hw, hw', h, h' => by
    have hs := hT _ (self_mem_typeParts _)
    rw [Returned] at h h'
    exact variantReturned_unique env vs (fun v hv => (hs.1.2 v hv).2.2)
      (fun U hU => hT U (by simp [typeParts, hU])) v w w'
      (fun p hp => hw p (by simp [valueParts, hp])) (fun p hp => hw' p (by simp [valueParts, hp])) h h'
  | .union _, _, v, _, _, _, _, _, _ => nomatch v
  | .foreign, _, _, _, _, _, _, h, h' => by simp only [Returned] at h h'; rw [h, h']
theorem tupleReturned_unique {t : Target} {mode : BuildMode} (env : Env) : (Ts : List RTy) →
    (∀ U ∈ typePartsAll Ts, DeterminedPart U) → (v w w' : TupleCarrier Ts) →
    (∀ p ∈ valuePartsAll Ts w, ValueOk t mode p) → (∀ p ∈ valuePartsAll Ts w', ValueOk t mode p) →
    TupleReturned env Ts v w → TupleReturned env Ts v w' → w = w'
  | [], _, _, _, _, _, _, _, _ => rfl
  | T :: Ts, hT, (v, vs), (w, ws), (w', ws'), hw, hw', h, h' => by
    rw [TupleReturned] at h h'
    rw [returned_unique env T (fun U hU => hT U (by simp [typePartsAll, hU])) v w w'
        (fun p hp => hw p (by simp [valuePartsAll, hp])) (fun p hp => hw' p (by simp [valuePartsAll, hp]))
        h.1 h'.1,
      tupleReturned_unique env Ts (fun U hU => hT U (by simp [typePartsAll, hU])) vs ws ws'
        (fun p hp => hw p (by simp [valuePartsAll, hp])) (fun p hp => hw' p (by simp [valuePartsAll, hp]))
        h.2 h'.2]
theorem fieldsReturned_unique {t : Target} {mode : BuildMode} (env : Env) : (fs : List RField) →
    SymmetricFields fs → (∀ U ∈ typePartsFields fs, DeterminedPart U) →
    (v w w' : FieldCarrier fs) → (∀ p ∈ valuePartsFields fs w, ValueOk t mode p) →
    (∀ p ∈ valuePartsFields fs w', ValueOk t mode p) →
    FieldsReturned env fs v w → FieldsReturned env fs v w' → w = w'
  | [], _, _, _, _, _, _, _, _, _ => rfl
  | .mk attrs name T :: fs, hs, hT, (v, vs), (w, ws), (w', ws'), hw, hw', h, h' => by
    have hsym : Skipped attrs ↔ SkippedDe attrs := (hs _ List.mem_cons_self).1
    rw [FieldsReturned] at h h'
    rw [fieldsReturned_unique env fs (fun f hf => hs f (by simp [hf]))
        (fun U hU => hT U (by simp [typePartsFields, hU])) vs ws ws'
        (fun p hp => hw p (by simp [valuePartsFields, hp]))
        (fun p hp => hw' p (by simp [valuePartsFields, hp])) h.2 h'.2]
    by_cases hk : Skipped attrs
    · rw [if_pos (hsym.mp hk)] at h h'
      rw [Option.some.inj (h.1.symm.trans h'.1)]
    · have hk' : ¬ SkippedDe attrs := fun x => hk (hsym.mpr x)
      rw [if_neg hk'] at h h'
      rw [returned_unique env T (fun U hU => hT U (by simp [typePartsFields, hk, hU])) v w w'
        (fun p hp => hw p (by simp [valuePartsFields, hk, hp]))
        (fun p hp => hw' p (by simp [valuePartsFields, hk, hp])) h.1 h'.1]
theorem variantReturned_unique {t : Target} {mode : BuildMode} (env : Env) : (vs : List RVariant) →
    (∀ v ∈ vs, SymmetricFields (Spec.variantFields v)) →
    (∀ U ∈ typePartsVariants vs, DeterminedPart U) → (v w w' : VariantsCarrier vs) →
    (∀ p ∈ valuePartsVariant vs w, ValueOk t mode p) →
    (∀ p ∈ valuePartsVariant vs w', ValueOk t mode p) →
    VariantReturned env vs v w → VariantReturned env vs v w' → w = w'
  | .mk _ _ (.named fs) :: vs, hy, hT, .inl v, .inl w, .inl w', hw, hw', h, h' => by
    rw [VariantReturned] at h h'
    rw [fieldsReturned_unique env fs (hy _ List.mem_cons_self)
      (fun U hU => hT U (by simp [typePartsVariants, hU])) v w w'
      (fun p hp => hw p (by simpa [valuePartsVariant] using hp))
      (fun p hp => hw' p (by simpa [valuePartsVariant] using hp)) h h']
  | .mk _ _ (.unnamed fs) :: vs, hy, hT, .inl v, .inl w, .inl w', hw, hw', h, h' => by
    rw [VariantReturned] at h h'
    rw [fieldsReturned_unique env fs (hy _ List.mem_cons_self)
      (fun U hU => hT U (by simp [typePartsVariants, hU])) v w w'
      (fun p hp => hw p (by simpa [valuePartsVariant] using hp))
      (fun p hp => hw' p (by simpa [valuePartsVariant] using hp)) h h']
  | .mk _ _ .unit :: vs, _, _, .inl _, .inl _, .inl _, _, _, _, _ => rfl
  | .mk _ _ fields :: vs, hy, hT, .inr v, .inr w, .inr w', hw, hw', h, h' => by
    have e : VariantReturned env vs v w := by
      cases fields <;> (rw [VariantReturned] at h; exact h)
    have e' : VariantReturned env vs v w' := by
      cases fields <;> (rw [VariantReturned] at h'; exact h')
    rw [variantReturned_unique env vs (fun v hv => hy v (by simp [hv]))
      (fun U hU => hT U (by cases fields <;> simp [typePartsVariants, hU])) v w w'
      (fun p hp => hw p (by cases fields <;> simpa [valuePartsVariant] using hp))
      (fun p hp => hw' p (by cases fields <;> simpa [valuePartsVariant] using hp)) e e']
  | .mk _ _ fields :: vs, _, _, .inl v, .inr w, _, _, _, h, _ => by
    cases fields <;> (rw [VariantReturned] at h; exact h.elim)
  | .mk _ _ fields :: vs, _, _, .inl v, _, .inr w, _, _, _, h => by
    cases fields <;> (rw [VariantReturned] at h; exact h.elim)
  | .mk _ _ fields :: vs, _, _, .inr v, .inl w, _, _, _, h, _ => by
    cases fields <;> (rw [VariantReturned] at h; exact h.elim)
  | .mk _ _ fields :: vs, _, _, .inr v, _, .inl w, _, _, _, h => by
    cases fields <;> (rw [VariantReturned] at h; exact h.elim)
end

/-- What is shown of every decoded value. -/
theorem decoded {t t' : Target} (h : t'.ptr = .w64 ∨ t'.ptr = t.ptr) (mode : BuildMode) (env : Env)
    (ho : FairOrder env) (T : RTy) (hr : Readable T) (hs : Symmetric T) (hd : Defaulted env T)
    (L : Bool) (hL : ∀ U ∈ typeParts T, U = .offsetDateTime ∨ U = .numBigDecimal → L = false)
    {fin : Ending} {bs rest : List UInt8} {w : Carrier T}
    (hw : Prog.exec t fin (deTy t mode env T) bs = .ok (w, rest)) :
    ∃ n, n + rest.length = bs.length ∧ Back t' mode env L T w n :=
  yields_ty h mode env ho L T (fun U hU => ⟨⟨hr U hU, hs U hU, hd U hU⟩, hL U hU⟩) fin bs w rest hw

theorem Back.ok {t : Target} {mode : BuildMode} {env : Env} {L : Bool} {T : RTy} {w : Carrier T}
    {n : Nat} (h : Back t mode env L T w n) (hn : DecimalsNormalise T w) (hb : BuffersFit t T w) :
    ∀ p ∈ valueParts T w, ValueOk t mode p :=
  fun p hp => h.parts p hp (fun d e => hn d (e ▸ hp)) fun b e => hb.imp_right fun hb => hb b (e ▸ hp)

end Dlhn.Derive
