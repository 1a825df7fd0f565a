import Verif.Proof.BodyGen
/-! # Dynamically decoded bodies are fit for re-encoding -/
namespace Dlhn.Body

open Spec PrefixVarint De
open Prog (Yields exec)

/-- A body without parts other than itself is good if it is good itself. -/
theorem Good.leaf {t : Target} {mode : BuildMode} {size : Nat} {b : Body} (hp : parts b = [b])
    (h1 : LengthsFit t b := by trivial)
    (h2 : ∀ es, b = .map es → Ascending es := by intros _ h; cases h)
    (h3 : ∀ v, b = .bigDecimal v → v.signedBytes = [] → v.scale = 0 := by intros _ h; cases h)
    (h4 : ∀ d, b = .date d → mode = .debug → DateFits d := by intros _ h; cases h)
    (h5 : ∀ bs, b = .array bs ∨ b = .tuple bs → t.allocate (bs.length * size) = Option.none := by
      intros _ h; rcases h with h | h <;> cases h) : Good t mode size b :=
  Good.of_parts (fun c hc => by rw [hp] at hc; exact .inl (by simpa using hc)) h1 h2 h3 h4 h5

theorem yields_vecU8 (t : Target) :
    Yields t (deVecU8 t) fun bs n => (block bs).length ≤ n ∧ bs.length < 2 ^ t.ptr.bits := by
  refine (yields_u64 t).bind fun count n hn => ?_
  have h1 : Yields t deU8 fun (_ : UInt8) m => True ∧ ([0] : List UInt8).length ≤ m :=
    yields_wrap (yields_read t 1) _ fun _ _ hm => ⟨trivial, by simp [hm]⟩
  refine (yields_times (fun _ => True) (fun _ => [0]) h1 (t.asUsize count)).mono fun bs m hm => ?_
  have hf : ∀ l : List UInt8, (l.map fun _ => ([0] : List UInt8)).flatten.length = l.length := by
    intro l; induction l with
    | nil => rfl
    | cons a l ih => simp [ih]
  rw [hf] at hm
  have := asUsize_lt t count
  have := varintLen_mono 64 (asUsize_le t count)
  rw [length_block, hm.1]
  omega

theorem yields_i64 (t : Target) :
    Yields t deI64 fun v n => (varint 64 (zigzag v.toInt)).length ≤ n := by
  refine yields_wrap (yields_u64 t) _ fun v n hn => ?_
  rw [← ZigZag.encodeI64_spec, ZigZag.encode_decodeI64, length_varint]; exact hn

theorem yields_i32 (t : Target) :
    Yields t deI32 fun v n => (varint 32 (zigzag v.toInt)).length ≤ n := by
  refine yields_wrap (yields_u32 t) _ fun v n hn => ?_
  rw [← ZigZag.encodeI32_spec, ZigZag.encode_decodeI32, length_varint]; exact hn

theorem yields_i16 (t : Target) :
    Yields t deI16 fun v n => (varint 16 (zigzag v.toInt)).length ≤ n := by
  refine yields_wrap (yields_u16 t) _ fun v n hn => ?_
  rw [← ZigZag.encodeI16_spec, ZigZag.encode_decodeI16, length_varint]; exact hn

theorem yields_bool (t : Target) : Yields t deBool fun _ n => 1 ≤ n := by
  refine (yields_read t 1).bind fun v m hm => ?_
  split
  · exact Yields.done_ok (by omega)
  · exact Yields.done_ok (by omega)
  · exact Yields.done_err

theorem yields_bigDecimal (t : Target) :
    Yields t (BigDecimal.de t) fun v n => (decimalWire v).length ≤ n ∧
      v.signedBytes.length < 2 ^ t.ptr.bits ∧ (v.signedBytes = [] → v.scale = 0) := by
  refine (yields_vecU8 t).bind fun bs n hn => ?_
  by_cases hb : bs = []
  · subst hb
    refine Yields.done_ok ?_
    rw [block_nil] at hn
    exact ⟨by simpa [decimalWire] using hn.1, Nat.two_pow_pos _, fun _ => rfl⟩
  · rw [if_neg (by simpa using hb)]
    refine yields_wrap (yields_i64 t) _ fun scale m hm => ?_
    simp only [decimalWire, hb, if_false, List.length_append]
    exact ⟨by omega, hn.2, fun x => absurd x (by simp)⟩

theorem addI32_some {mode : BuildMode} {y z : Int32} (h : addI32 mode y 2000 = Option.some z) :
    z - 2000 = y ∧ (mode = .debug → -2 ^ 31 + 2000 ≤ z.toInt) := by
  have h2 : (2000 : Int32).toInt = 2000 := by decide
  cases mode with
  | release =>
    simp only [addI32, Option.some.injEq] at h
    subst h
    exact ⟨by simp, by simp⟩
  | debug =>
    simp only [addI32] at h
    split at h
    · rename_i hr
      simp only [Option.some.injEq] at h
      subst h
      refine ⟨by simp, fun _ => ?_⟩
      have h1 := Int32.le_toInt y
      rw [h2] at hr
      rw [Int32.toInt_add, h2, Int.bmod_eq_of_le (by omega) (by omega)]
      omega
    · simp at h

theorem addU16_some {mode : BuildMode} {y z : UInt16} (h : addU16 mode y 1 = Option.some z) :
    z - 1 = y ∧ (mode = .debug → 1 ≤ z.toNat) := by
  cases mode with
  | release =>
    simp only [addU16, Option.some.injEq] at h
    subst h
    exact ⟨by simp, by simp⟩
  | debug =>
    simp only [addU16] at h
    split at h
    · rename_i hr
      simp only [Option.some.injEq] at h
      subst h
      refine ⟨by simp, fun _ => ?_⟩
      have : (1 : UInt16).toNat = 1 := rfl
      rw [UInt16.toNat_add, Nat.mod_eq_of_lt (by simpa using hr)]
      omega
    · simp at h

theorem yields_date (t : Target) (mode : BuildMode) :
    Yields t (Date.de mode) fun d n => (dateWire d).length ≤ n ∧ (mode = .debug → DateFits d) := by
  refine (yields_i32 t).bind fun y n hn => ?_
  split
  · exact Yields.done_panic
  · rename_i year hy
    refine (yields_u16 t).bind fun o m hm => ?_
    split
    · exact Yields.done_panic
    · rename_i ordinal ho
      obtain ⟨h1, h2⟩ := addI32_some hy
      obtain ⟨h3, h4⟩ := addU16_some ho
      refine Yields.done_ok ⟨?_, fun e => ⟨h2 e, h4 e⟩⟩
      simp only [dateWire, h1, h3, List.length_append]
      rw [length_varint 16]
      omega

theorem yields_dateTime (t : Target) :
    Yields t DateTime.de fun d n => (dateTimeWire d).length ≤ n := by
  refine (yields_i64 t).bind fun s n hn => yields_wrap (yields_u32 t) _ fun ns m hm => ?_
  simp only [dateTimeWire, List.length_append]
  rw [length_varint 32]
  omega

theorem btreeInsert_size (k : String) (v : Body) (m : List (String × Body)) :
    (btreeInsert k v m).length ≤ m.length + 1 ∧
    (entriesWire (btreeInsert k v m)).length ≤
      (entriesWire m).length + ((block (utf8 k)).length + (bodyWire v).length) := by
  induction m with
  | nil => simp [btreeInsert, entriesWire]
  | cons e m ih =>
    obtain ⟨k', v'⟩ := e
    rcases btreeInsert_cons k v k' v' m with ⟨_, h⟩ | ⟨_, h⟩ | ⟨rfl, h⟩
    · rw [h]; simp [entriesWire]; omega
    · rw [h]; simp [entriesWire]; omega
    · rw [h]; simp [entriesWire]; omega

theorem yields_insertLoop {t : Target} {p : Prog DeErr Body} {Q : Body → Prop}
    (hp : Yields t p fun b n => Q b ∧ (bodyWire b).length ≤ n) (n c : Nat)
    (m : List (String × Body)) (hq : ∀ e ∈ m, Q e.2 ∧ (utf8 e.1).length < 2 ^ 64)
    (ha : Ascending m) (hc : m.length ≤ c) :
    Yields t (insertLoop t p n m) fun m' a =>
      (∀ e ∈ m', Q e.2 ∧ (utf8 e.1).length < 2 ^ 64) ∧ Ascending m' ∧ m'.length ≤ c + n ∧
      (entriesWire m').length ≤ (entriesWire m).length + a := by
  induction n generalizing m c with
  | zero => exact Yields.done_ok ⟨hq, ha, hc, by omega⟩
  | succ n ih =>
    refine (yields_string t).bind fun k a hk => hp.bind fun v b hv => ?_
    obtain ⟨h1, h2⟩ := btreeInsert_size k v m
    refine (ih (c + 1) (btreeInsert k v m) (fun e he => ?_) (ascending_btreeInsert ha k v)
      (by omega)).mono fun m' x hx => ?_
    · rcases (mem_btreeInsert ha k v e).mp he with rfl | ⟨_, he⟩
      · exact ⟨hv.1, lt_64_of_lt_bits hk.2⟩
      · exact hq e he
    · obtain ⟨x1, x2, x3, x4⟩ := hx
      exact ⟨x1, x2, by omega, by omega⟩

/-- What target `t` allocates for vectors of bodies is allocated by the 64-bit target `t'`
as well. -/
structure Wider (t : Target) (size : Nat) (t' : Target) (size' : Nat) : Prop where
  wide : t'.ptr = .w64
  array : ∀ len : UInt64, t.allocate (t.asUsize len * size) = Option.none →
    t'.allocate (len.toNat * size') = Option.none
  tuple : ∀ n : Nat, t.allocate (n * size) = Option.none → t'.allocate (n * size') = Option.none

theorem Wider.self {t : Target} (h : t.ptr = .w64) (size : Nat) : Wider t size t size :=
  ⟨h, fun len hl => by rwa [asUsize_w64 h] at hl, fun _ hl => hl⟩

theorem Wider.any (t : Target) (size : Nat) : Wider t size ⟨.w64, 0⟩ 0 :=
  ⟨rfl, fun _ _ => by simp [Target.allocate], fun _ _ => by simp [Target.allocate]⟩

mutual
/-- Every decoded body is good on each 64-bit target which allocates as much, and its
encoding is not longer than the input consumed. -/
theorem yields_body {t t' : Target} {size size' : Nat} (h : Wider t size t' size') (mode : BuildMode) :
    (hd : Header) →
    Yields t (de t mode size hd) fun b n => Good t' mode size' b ∧ (bodyWire b).length ≤ n
  | .unit => by
    rw [de]
    refine Yields.done_ok ⟨Good.leaf (by simp [parts]), by simp [bodyWire]⟩
  | .optional hd => by
    rw [de]
    refine (yields_bool t).bind fun b n hn => ?_
    split
    · refine yields_wrap (yields_body h mode hd) _ fun c m hm => ⟨?_, ?_⟩
      · exact Good.of_parts (fun x hx => by
          simp only [parts, List.mem_cons] at hx
          rcases hx with hx | hx
          · exact .inl hx
          · exact .inr ⟨c, hx, hm.1⟩) trivial (fun _ e => by cases e) (fun _ e => by cases e)
          (fun _ e => by cases e) (fun _ e => by rcases e with e | e <;> cases e)
      · rw [bodyWire, List.length_cons]; omega
    · exact Yields.done_ok ⟨Good.leaf (by simp [parts]), by simpa [bodyWire] using hn⟩
  | .boolean => by
    rw [de]
    exact yields_wrap (yields_bool t) _ fun b n hn =>
      ⟨Good.leaf (by simp [parts]), by simpa [bodyWire] using hn⟩
  | .uint8 => by
    rw [de]
    exact yields_wrap (yields_wrap (R := fun _ n => 1 ≤ n) (yields_read t 1) _ fun _ _ hm => by omega)
      _ fun b n hn => ⟨Good.leaf (by simp [parts]), by simpa [bodyWire] using hn⟩
  | .uint16 => by
    rw [de]
    exact yields_wrap (yields_u16 t) _ fun b n hn =>
      ⟨Good.leaf (by simp [parts]), by rw [bodyWire, length_varint]; exact hn⟩
  | .uint32 => by
    rw [de]
    exact yields_wrap (yields_u32 t) _ fun b n hn =>
      ⟨Good.leaf (by simp [parts]), by rw [bodyWire, length_varint]; exact hn⟩
  | .uint64 => by
    rw [de]
    exact yields_wrap (yields_u64 t) _ fun b n hn =>
      ⟨Good.leaf (by simp [parts]), by rw [bodyWire, length_varint]; exact hn⟩
  | .int8 => by
    rw [de]
    exact yields_wrap (yields_wrap (R := fun _ n => 1 ≤ n) (yields_read t 1) _ fun _ _ hm => by omega)
      _ fun b n hn => ⟨Good.leaf (by simp [parts]), by simpa [bodyWire] using hn⟩
  | .int16 => by
    rw [de]
    exact yields_wrap (yields_i16 t) _ fun b n hn =>
      ⟨Good.leaf (by simp [parts]), by rw [bodyWire]; exact hn⟩
  | .int32 => by
    rw [de]
    exact yields_wrap (yields_i32 t) _ fun b n hn =>
      ⟨Good.leaf (by simp [parts]), by rw [bodyWire]; exact hn⟩
  | .int64 => by
    rw [de]
    exact yields_wrap (yields_i64 t) _ fun b n hn =>
      ⟨Good.leaf (by simp [parts]), by rw [bodyWire]; exact hn⟩
  | .float32 => by
    rw [de]
    exact yields_wrap (yields_wrap (R := fun _ n => 4 ≤ n) (yields_read t 4) _ fun _ _ hm => by omega)
      _ fun b n hn => ⟨Good.leaf (by simp [parts]), by rw [bodyWire, length_leBytes]; exact hn⟩
  | .float64 => by
    rw [de]
    exact yields_wrap (yields_wrap (R := fun _ n => 8 ≤ n) (yields_read t 8) _ fun _ _ hm => by omega)
      _ fun b n hn => ⟨Good.leaf (by simp [parts]), by rw [bodyWire, length_leBytes]; exact hn⟩
  | .bigUInt => by
    rw [de]
    refine yields_wrap (yields_wrap (R := fun (v : BigUint) n => (block v.bytes).length ≤ n ∧
      v.bytes.length < 2 ^ t.ptr.bits) (yields_vecU8 t) BigUint.mk fun _ _ hm => hm) _ fun b n hn => ⟨?_, ?_⟩
    · exact Good.leaf (by simp [parts]) (by simp only [LengthsFit, h.wide]; exact lt_64_of_lt_bits hn.2)
    · rw [bodyWire]; exact hn.1
  | .bigInt => by
    rw [de]
    refine yields_wrap (yields_wrap (R := fun (v : BigInt) n => (block v.bytes).length ≤ n ∧
      v.bytes.length < 2 ^ t.ptr.bits) (yields_vecU8 t) BigInt.mk fun _ _ hm => hm) _ fun b n hn => ⟨?_, ?_⟩
    · exact Good.leaf (by simp [parts]) (by simp only [LengthsFit, h.wide]; exact lt_64_of_lt_bits hn.2)
    · rw [bodyWire]; exact hn.1
  | .bigDecimal => by
    rw [de]
    refine yields_wrap (yields_bigDecimal t) _ fun b n hn => ⟨?_, ?_⟩
    · exact Good.leaf (by simp [parts]) (by simp only [LengthsFit, h.wide]; exact lt_64_of_lt_bits hn.2.1)
        (h3 := fun v e => by cases e; exact hn.2.2)
    · rw [bodyWire]; exact hn.1
  | .string => by
    rw [de]
    refine yields_wrap (yields_string t) _ fun b n hn => ⟨?_, ?_⟩
    · exact Good.leaf (by simp [parts]) (by simp only [LengthsFit, h.wide]; exact lt_64_of_lt_bits hn.2)
    · rw [bodyWire]; exact hn.1
  | .binary => by
    rw [de]
    refine yields_wrap (yields_byteBuf t) _ fun b n hn => ⟨?_, ?_⟩
    · exact Good.leaf (by simp [parts]) (by simp only [LengthsFit, h.wide]; exact hn.2.1)
    · rw [bodyWire]; exact hn.1
  | .array hd => by
    rw [de]
    refine (yields_u64 t).bind fun len n hn => ?_
    have hy := yields_times (Good t' mode size') bodyWire (yields_body h mode hd) len.toNat
    by_cases hal : t.allocate (t.asUsize len * size) = Option.none
    · refine Yields.alloc (yields_wrap hy _ fun bs m hm => ?_)
      obtain ⟨h1, h2, h3⟩ := hm
      have hl := len.toNat_lt
      refine ⟨?_, ?_⟩
      · exact Good.of_parts (fun x hx => by
          simp only [parts, List.mem_cons, mem_partsAll] at hx
          rcases hx with hx | ⟨c, hc, hx⟩
          · exact .inl hx
          · exact .inr ⟨c, hx, h2 c hc⟩) (by simp only [LengthsFit, h.wide, h1]; exact hl)
          (fun _ e => by cases e) (fun _ e => by cases e) (fun _ e => by cases e)
          (fun _ e => by
            rcases e with e | e
            · cases e; rw [h1]; exact h.array _ hal
            · cases e)
      · rw [bodyWire, bodiesWire_eq, List.length_append, length_varint, h1]; omega
    · intro fin bs a rest hx
      rw [Prog.exec] at hx
      split at hx
      · simp at hx
      · exact absurd (by assumption) hal
  | .tuple hs => by
    rw [de]
    by_cases hal : t.allocate (hs.length * size) = Option.none
    · refine Yields.alloc (yields_wrap (yields_bodies h mode hs) _ fun bs m hm => ⟨?_, ?_⟩)
      · exact Good.of_parts (fun x hx => by
          simp only [parts, List.mem_cons, mem_partsAll] at hx
          rcases hx with hx | ⟨c, hc, hx⟩
          · exact .inl hx
          · exact .inr ⟨c, hx, hm.2.1 c hc⟩) trivial
          (fun _ e => by cases e) (fun _ e => by cases e) (fun _ e => by cases e)
          (fun _ e => by
            rcases e with e | e
            · cases e
            · cases e; rw [← hm.1]; exact h.tuple _ hal)
      · rw [bodyWire]; exact hm.2.2
    · intro fin bs a rest hx
      rw [Prog.exec] at hx
      split at hx
      · simp at hx
      · exact absurd (by assumption) hal
  | .map hd => by
    rw [de]
    refine (yields_u64 t).bind fun len n hn => ?_
    have hl := len.toNat_lt
    refine yields_wrap (yields_insertLoop (yields_body h mode hd) len.toNat 0 [] (by simp)
      List.Pairwise.nil (by simp)) _ fun m a hm => ?_
    obtain ⟨h1, h2, h3, h4⟩ := hm
    refine ⟨?_, ?_⟩
    · exact Good.of_parts (fun x hx => by
        simp only [parts, List.mem_cons, mem_partsEntries] at hx
        rcases hx with hx | ⟨c, hc, hx⟩
        · exact .inl hx
        · exact .inr ⟨c.2, hx, (h1 c hc).1⟩)
        (by simp only [LengthsFit, h.wide]
            exact ⟨by simp only [PtrWidth.bits]; omega, fun e he => (h1 e he).2⟩)
        (fun _ e => by cases e; exact h2) (fun _ e => by cases e) (fun _ e => by cases e)
        (fun _ e => by rcases e with e | e <;> cases e)
    · rw [bodyWire, List.length_append, length_varint]
      have := varintLen_mono 64 (a := m.length) (b := len.toNat) (by omega)
      simp only [entriesWire, List.length_nil] at h4
      omega
  | .enum hs => by
    rw [de]
    refine (yields_u32 t).bind fun i n hn => yields_wrap (yields_nth h mode hs i.toNat) _
      fun c m hm => ⟨?_, ?_⟩
    · exact Good.of_parts (fun x hx => by
          simp only [parts, List.mem_cons] at hx
          rcases hx with hx | hx
          · exact .inl hx
          · exact .inr ⟨c, hx, hm.1⟩) trivial (fun _ e => by cases e) (fun _ e => by cases e)
          (fun _ e => by cases e) (fun _ e => by rcases e with e | e <;> cases e)
    · rw [bodyWire, List.length_append, length_varint]; omega
  | .date => by
    rw [de]
    refine yields_wrap (yields_date t mode) _ fun b n hn => ⟨?_, ?_⟩
    · exact Good.leaf (by simp [parts]) (h4 := fun d e => by cases e; exact hn.2)
    · rw [bodyWire]; exact hn.1
  | .dateTime => by
    rw [de]
    exact yields_wrap (yields_dateTime t) _ fun b n hn =>
      ⟨Good.leaf (by simp [parts]), by rw [bodyWire]; exact hn⟩
theorem yields_bodies {t t' : Target} {size size' : Nat} (h : Wider t size t' size') (mode : BuildMode) :
    (hs : List Header) → Yields t (deAll t mode size hs) fun bs n => hs.length = bs.length ∧
      (∀ b ∈ bs, Good t' mode size' b) ∧ (bodiesWire bs).length ≤ n
  | [] => by rw [deAll]; exact Yields.done_ok (by simp [bodiesWire])
  | hd :: hs => by
    rw [deAll]
    refine (yields_body h mode hd).bind fun b n hn => yields_wrap (yields_bodies h mode hs)
      _ fun bs m hm => ⟨by simp [hm.1], fun x hx => ?_, ?_⟩
    · rcases List.mem_cons.mp hx with rfl | hx
      · exact hn.1
      · exact hm.2.1 x hx
    · rw [bodiesWire, List.length_append]; omega
theorem yields_nth {t t' : Target} {size size' : Nat} (h : Wider t size t' size') (mode : BuildMode) :
    (hs : List Header) → (n : Nat) →
    Yields t (deNth t mode size n hs) fun b n => Good t' mode size' b ∧ (bodyWire b).length ≤ n
  | [], n => by rw [deNth]; exact Yields.done_err
  | hd :: hs, 0 => by rw [deNth]; exact yields_body h mode hd
  | hd :: hs, n + 1 => by rw [deNth]; exact yields_nth h mode hs n
end

end Dlhn.Body
