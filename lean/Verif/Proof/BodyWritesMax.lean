import Verif.Proof.DerivedWrites
import Verif.Proof.WritersMax
/-!
# Dynamic values that take as many calls of `write` as their header allows
-/
namespace Dlhn

open Spec hiding variantFields

/-- Dynamic values under the header that take so many calls. -/
def BodyCalls (t : Target) (mode : BuildMode) (h : Header) (n : Nat) : Prop :=
  ∃ b, Conforms h b ∧ Fine t mode b ∧ MakesCalls (Body.ser mode b) n

theorem makes_u8s (bs : List UInt8) : MakesCalls (Ser.serU8s bs) bs.length := by
  induction bs with
  | nil => exact makes_skip
  | cons b bs ih =>
    rw [Ser.serU8s, List.length_cons, Nat.add_comm]
    exact (makes_emit (by simp)).andThen ih

theorem makes_vecU8 (bs : List UInt8) : MakesCalls (Ser.serVecU8 bs) (1 + bs.length) :=
  (makes_serLen _).andThen (makes_u8s bs)

/-- As many `a`s. -/
def manyAs : Nat → String
  | 0 => ""
  | n + 1 => manyAs n ++ "a"

theorem utf8_manyAs (n : Nat) : utf8 (manyAs n) = List.replicate n 97 := by
  induction n with
  | zero => exact utf8_empty
  | succ n ih =>
    have : utf8 "a" = [97] := by decide
    rw [manyAs, utf8_append, ih, this, List.replicate_succ']

theorem replicate_lt {i j : Nat} (h : i < j) (x : UInt8) :
    List.replicate i x < List.replicate j x := by
  induction i generalizing j with
  | zero =>
    cases j with
    | zero => omega
    | succ j => rw [List.replicate_zero, List.replicate_succ]; exact List.Lex.nil
  | succ i ih =>
    cases j with
    | zero => omega
    | succ j =>
      rw [List.replicate_succ, List.replicate_succ]
      exact List.Lex.cons (ih (by omega))

/-- So many entries. -/
def manyEntries (b : Body) (k : Nat) : List (String × Body) :=
  (List.range k).map fun i => (manyAs i, b)

theorem manyEntries_ascending (b : Body) (k : Nat) : Ascending (manyEntries b k) := by
  rw [Ascending, manyEntries, List.pairwise_map]
  refine List.pairwise_lt_range.imp fun {i j} h => ?_
  simp only [utf8_manyAs]
  exact replicate_lt h _

theorem makes_bodyEntries {mode : BuildMode} {b : Body} {n : Nat} (h : MakesCalls (Body.ser mode b) n)
    (es : List (String × Body)) (he : ∀ e ∈ es, e.2 = b) :
    ∃ m, es.length ≤ m ∧ MakesCalls (Body.serEntries mode es) m := by
  induction es with
  | nil => exact ⟨0, Nat.le_refl _, by rw [Body.serEntries]; exact makes_skip⟩
  | cons e es ih =>
    obtain ⟨k, c⟩ := e
    obtain rfl : c = b := he _ List.mem_cons_self
    obtain ⟨m, h1, h2⟩ := ih fun e h => he e (List.mem_cons_of_mem _ h)
    have hk : ∃ x, MakesCalls (Ser.serStr k) (1 + x) := by
      by_cases hb : Ser.strBytes k = []
      · exact ⟨0, (makes_serLen _).andThen ⟨rfl, by simp [writes, Ser.emit, sends, WProg.skip, hb]⟩⟩
      · exact ⟨1, (makes_serLen _).andThen (makes_emit hb)⟩
    obtain ⟨x, hx⟩ := hk
    refine ⟨1 + x + (n + m), by rw [List.length_cons]; omega, ?_⟩
    rw [Body.serEntries]
    exact hx.andThen (h.andThen h2)

theorem makes_bodies {mode : BuildMode} {b : Body} {n : Nat} (h : MakesCalls (Body.ser mode b) n)
    (k : Nat) : MakesCalls (Body.serAll mode (List.replicate k b)) (k * n) := by
  induction k with
  | zero => rw [Nat.zero_mul, List.replicate_zero, Body.serAll]; exact makes_skip
  | succ k ih =>
    rw [List.replicate_succ, Body.serAll, Nat.succ_mul, Nat.add_comm]
    exact h.andThen ih

theorem reaches_array {t : Target} {mode : BuildMode} {h : Header} {hi : Option Nat}
    (hr : Reaches (top t) (BodyCalls t mode h) hi) :
    Reaches (top t) (BodyCalls t mode (.array h)) (if hi = some 0 then some 1 else none) := by
  have h1 : BodyCalls t mode (.array h) 1 :=
    ⟨.array [], .array h [] (by simp), .array (Nat.two_pow_pos _) (by simp), by
      rw [Body.ser, Body.serAll]; exact (makes_serLen _).andThen makes_skip⟩
  refine ⟨⟨1, h1⟩, fun m hm => ?_, fun hb k hk => ?_⟩
  · split at hm
    · cases hm; exact h1
    · cases hm
  · cases hi with
    | none =>
      obtain ⟨n, hn, b, hc, hf, hw⟩ := hr.above rfl k hk
      refine ⟨1 + (n + 0), by omega, .array [b], .array h _ ?_, .array (one_lt t) ?_, ?_⟩
      · intro c hc'; rw [List.mem_singleton.mp hc']; exact hc
      · intro c hc'; rw [List.mem_singleton.mp hc']; exact hf
      · rw [Body.ser, Body.serAll, Body.serAll]
        exact (makes_serLen _).andThen (hw.andThen makes_skip)
    | some m =>
      have h0 : m ≠ 0 := by
        rintro rfl
        rw [if_pos rfl] at hb; cases hb
      obtain ⟨b, hc, hf, hw⟩ := hr.top m rfl
      refine ⟨1 + k * m, ?_, .array (List.replicate k b), .array h _ ?_, .array ?_ ?_, ?_⟩
      · have := Nat.le_mul_of_pos_right k (Nat.pos_of_ne_zero h0)
        omega
      · intro c hc'; rw [List.eq_of_mem_replicate hc']; exact hc
      · rw [List.length_replicate]; exact hk
      · intro c hc'; rw [List.eq_of_mem_replicate hc']; exact hf
      · rw [Body.ser]; exact (makes_serLen _).andThen (makes_bodies hw k)

theorem reaches_btree {t : Target} {mode : BuildMode} {h : Header} {hi : Option Nat}
    (hr : Reaches (top t) (BodyCalls t mode h) hi) :
    Reaches (top t) (BodyCalls t mode (.map h)) none := by
  obtain ⟨n, b, hc, hf, hw⟩ := hr.has
  have key : ∀ k, k < top t → ∃ n, k ≤ n ∧ BodyCalls t mode (.map h) n := by
    intro k hk
    have hl : (manyEntries b k).length = k := by simp [manyEntries]
    have he : ∀ e ∈ manyEntries b k, e.2 = b ∧ (utf8 e.1).length < top t := by
      intro e he
      rw [manyEntries, List.mem_map] at he
      obtain ⟨i, hi, rfl⟩ := he
      rw [List.mem_range] at hi
      refine ⟨rfl, ?_⟩
      simp only [utf8_manyAs, List.length_replicate]
      omega
    obtain ⟨m, h1, h2⟩ := makes_bodyEntries hw (manyEntries b k) fun e h => (he e h).1
    refine ⟨1 + m, by omega, .map (manyEntries b k), .map h _ ?_, .of_parts ?_ ?_ ?_ nofun, ?_⟩
    · intro e hm; rw [(he e hm).1]; exact hc
    · intro c hc'
      rw [parts] at hc'
      rcases List.mem_cons.mp hc' with rfl | hc'
      · exact .inl rfl
      · obtain ⟨e, hm, hc'⟩ := Body.mem_partsEntries.mp hc'
        rw [(he e hm).1] at hc'
        exact .inr ⟨b, hc', hf⟩
    · exact ⟨by rw [hl]; exact hk, fun e hm => (he e hm).2⟩
    · intro es hes; cases hes; exact manyEntries_ascending b k
    · rw [Body.ser]; exact (makes_serLen _).andThen h2
  refine ⟨?_, fun m hm => (by cases hm), fun _ => key⟩
  obtain ⟨n, -, hn⟩ := key 0 (Nat.two_pow_pos _)
  exact ⟨n, hn⟩

theorem reaches_digits {t : Target} {mode : BuildMode} {h : Header}
    (key : ∀ k, k < top t → ∃ n, k ≤ n ∧ BodyCalls t mode h n) :
    Reaches (top t) (BodyCalls t mode h) none := by
  refine ⟨?_, fun m hm => (by cases hm), fun _ => key⟩
  obtain ⟨n, -, hn⟩ := key 0 (Nat.two_pow_pos _)
  exact ⟨n, hn⟩

mutual
theorem reaches_body {t : Target} {mode : BuildMode} : (h : Header) → PopulatedHeader h →
    Reaches (top t) (BodyCalls t mode h) (maxWritesHeader h)
  | .unit, _ => .one ⟨.unit, .unit, .leaf rfl (by simp [LengthsFit]) nofun nofun, makes_skip⟩
  | .boolean, _ => .one ⟨.boolean true, .boolean _, .leaf rfl (by simp [LengthsFit]) nofun nofun,
      makes_emit (by decide)⟩
  | .uint8, _ => .one ⟨.uint8 0, .uint8 _, .leaf rfl (by simp [LengthsFit]) nofun nofun,
      makes_emit (by decide)⟩
  | .uint16, _ => .one ⟨.uint16 0, .uint16 _, .leaf rfl (by simp [LengthsFit]) nofun nofun,
      makes_emit (by decide +kernel)⟩
  | .uint32, _ => .one ⟨.uint32 0, .uint32 _, .leaf rfl (by simp [LengthsFit]) nofun nofun,
      makes_emit (by decide +kernel)⟩
  | .uint64, _ => .one ⟨.uint64 0, .uint64 _, .leaf rfl (by simp [LengthsFit]) nofun nofun,
      makes_emit (by decide +kernel)⟩
  | .int8, _ => .one ⟨.int8 0, .int8 _, .leaf rfl (by simp [LengthsFit]) nofun nofun,
      makes_emit (by decide)⟩
  | .int16, _ => .one ⟨.int16 0, .int16 _, .leaf rfl (by simp [LengthsFit]) nofun nofun,
      makes_emit (by decide +kernel)⟩
  | .int32, _ => .one ⟨.int32 0, .int32 _, .leaf rfl (by simp [LengthsFit]) nofun nofun,
      makes_emit (by decide +kernel)⟩
  | .int64, _ => .one ⟨.int64 0, .int64 _, .leaf rfl (by simp [LengthsFit]) nofun nofun,
      makes_emit (by decide +kernel)⟩
  | .float32, _ => .one ⟨.float32 0, .float32 _, .leaf rfl (by simp [LengthsFit]) nofun nofun,
      makes_emit (by decide)⟩
  | .float64, _ => .one ⟨.float64 0, .float64 _, .leaf rfl (by simp [LengthsFit]) nofun nofun,
      makes_emit (by decide)⟩
  | .string, _ => .one ⟨.string "a", .string _, .leaf rfl (by
      have : (utf8 "a").length = 1 := by decide
      rw [LengthsFit, this]; exact one_lt t) nofun nofun,
      (makes_serLen _).andThen (makes_emit (by decide))⟩
  | .binary, _ => .one ⟨.binary [0], .binary _, .leaf rfl (one_lt t) nofun nofun,
      (makes_serLen _).andThen (makes_emit (by decide))⟩
  | .date, _ => .one ⟨.date ⟨2000, 1⟩, .date _, .leaf rfl (by simp [LengthsFit]) nofun (by
      intro d hd _; cases hd; exact ⟨by decide, by decide⟩), by
      have h2 : MakesCalls ((Ser.serI32 0).andThen (Ser.serU16 0)) (1 + 1) :=
        (makes_emit (by decide +kernel)).andThen (makes_emit (by decide +kernel))
      cases mode <;> exact h2⟩
  | .dateTime, _ => .one ⟨.dateTime ⟨0, 0⟩, .dateTime _, .leaf rfl (by simp [LengthsFit]) nofun nofun,
      (makes_emit (by decide +kernel)).andThen (makes_emit (by decide +kernel))⟩
  | .bigUInt, _ => reaches_digits fun k hk =>
      ⟨0 + (1 + k), by omega, .bigUInt ⟨List.replicate k 0⟩, .bigUInt _, .leaf rfl (by
        rw [LengthsFit, List.length_replicate]; exact hk) nofun nofun, by
        have := makes_vecU8 (List.replicate k 0)
        rw [List.length_replicate] at this
        exact makes_skip.andThen this⟩
  | .bigInt, _ => reaches_digits fun k hk =>
      ⟨0 + (1 + k), by omega, .bigInt ⟨List.replicate k 0⟩, .bigInt _, .leaf rfl (by
        rw [LengthsFit, List.length_replicate]; exact hk) nofun nofun, by
        have := makes_vecU8 (List.replicate k 0)
        rw [List.length_replicate] at this
        exact makes_skip.andThen this⟩
  | .bigDecimal, _ => reaches_digits fun k hk => by
      cases k with
      | zero =>
        exact ⟨0 + 1, by omega, .bigDecimal ⟨[], 0⟩, .bigDecimal _, .leaf rfl
          (Nat.two_pow_pos _) nofun nofun, makes_skip.andThen (makes_emit (by decide))⟩
      | succ k =>
        refine ⟨0 + (1 + (k + 1) + 1), by omega, .bigDecimal ⟨List.replicate (k + 1) 0, 0⟩,
          .bigDecimal _, .leaf rfl (by
            rw [LengthsFit, List.length_replicate]; exact hk) nofun nofun, ?_⟩
        have := makes_vecU8 (List.replicate (k + 1) 0)
        rw [List.length_replicate] at this
        rw [Body.ser, BigDecimal.ser, if_neg (by simp [List.replicate_succ])]
        have h0 : MakesCalls (Ser.serI64 0) 1 := makes_emit (by decide +kernel)
        exact makes_skip.andThen (this.andThen h0)
  | .optional h, hp => by
    rw [maxWritesHeader]
    refine ((Reaches.one (S := (· = 1)) rfl).add (reaches_body (t := t) (mode := mode) h
      (populated_mono hp fun x hx => by
        rw [headerParts]; exact List.mem_cons_of_mem _ hx))).imp ?_
    rintro n ⟨x, y, rfl, ⟨b, hc, hf, hw⟩, rfl⟩
    exact ⟨.some b, .some h b hc, hf.some, by
      rw [Body.ser]; exact (makes_emit (by decide)).andThen hw⟩
  | .array h, hp => by
    rw [maxWritesHeader]
    exact reaches_array (reaches_body (t := t) (mode := mode) h (populated_mono hp fun x hx => by
      rw [headerParts]; exact List.mem_cons_of_mem _ hx))
  | .map h, hp => reaches_btree (reaches_body (t := t) (mode := mode) h
      (populated_mono hp fun x hx => by rw [headerParts]; exact List.mem_cons_of_mem _ hx))
  | .tuple hs, hp => by
    rw [maxWritesHeader]
    refine (reaches_bodies (t := t) (mode := mode) hs fun hs' hm => hp hs' (by
      rw [headerParts]; exact List.mem_cons_of_mem _ hm)).imp ?_
    rintro n ⟨bs, hl, hc, hf, hw⟩
    exact ⟨.tuple bs, .tuple hs bs hl hc, .tuple hf, by rw [Body.ser]; exact hw⟩
  | .enum hs, hp => by
    rw [maxWritesHeader]
    have h0 := hp hs (Body.self_mem_headerParts _)
    refine ((Reaches.one (S := (· = 1)) rfl).add
      (reaches_either (t := t) (mode := mode) hs h0.1 fun hs' hm => hp hs' (by
        rw [headerParts]; exact List.mem_cons_of_mem _ hm))).imp ?_
    rintro n ⟨x, y, rfl, ⟨i, h, b, hi, hc, hf, hw⟩, rfl⟩
    have hlt : i < hs.length := (List.getElem?_eq_some_iff.mp hi).1
    have e := ofNat_toNat (k := i) (by omega)
    exact ⟨.enum (UInt32.ofNat i) b, .enum hs _ h b (by rw [e]; exact hi) hc, hf.enum _, by
      rw [Body.ser]; exact (makes_serU32 _).andThen hw⟩
theorem reaches_bodies {t : Target} {mode : BuildMode} : (hs : List Header) →
    (∀ hs', .enum hs' ∈ headersParts hs → hs' ≠ [] ∧ hs'.length ≤ 2 ^ 32) →
    Reaches (top t) (fun n => ∃ bs : List Body, hs.length = bs.length ∧
        (∀ (i : Nat) (h : Header) (b : Body), hs[i]? = some h → bs[i]? = some b → Conforms h b) ∧
        (∀ b ∈ bs, Fine t mode b) ∧ MakesCalls (Body.serAll mode bs) n) (maxWritesHeaders hs)
  | [], _ => .one ⟨[], rfl, by simp, by simp, by rw [Body.serAll]; exact makes_skip⟩
  | h :: hs, hp => by
    rw [maxWritesHeaders]
    refine ((reaches_body (t := t) (mode := mode) h fun hs' hm => hp hs' (by
        rw [headersParts]; exact List.mem_append_left _ hm)).add
      (reaches_bodies (t := t) (mode := mode) hs fun hs' hm => hp hs' (by
        rw [headersParts]; exact List.mem_append_right _ hm))).imp ?_
    rintro n ⟨x, y, ⟨b, hc, hf, hw⟩, ⟨bs, hl, hcs, hfs, hws⟩, rfl⟩
    refine ⟨b :: bs, by simp [hl], fun i h' b' h1 h2 => ?_, fun c hc' => ?_, ?_⟩
    · cases i with
      | zero => cases h1; cases h2; exact hc
      | succ i => exact hcs i h' b' h1 h2
    · rcases List.mem_cons.mp hc' with rfl | hc'
      · exact hf
      · exact hfs c hc'
    · rw [Body.serAll]; exact hw.andThen hws
theorem reaches_either {t : Target} {mode : BuildMode} : (hs : List Header) → hs ≠ [] →
    (∀ hs', .enum hs' ∈ headersParts hs → hs' ≠ [] ∧ hs'.length ≤ 2 ^ 32) →
    Reaches (top t) (fun n => ∃ (i : Nat) (h : Header) (b : Body), hs[i]? = some h ∧ Conforms h b ∧ Fine t mode b ∧
        MakesCalls (Body.ser mode b) n) (maxWritesEither hs)
  | [], hn, _ => absurd rfl hn
  | [h], _, hp => by
    rw [maxWritesEither, maxWritesEither]
    have e : maxBound (maxWritesHeader h) (some 0) = maxWritesHeader h := by
      cases maxWritesHeader h with
      | none => rfl
      | some m => simp [maxBound]
    rw [e]
    refine (reaches_body (t := t) (mode := mode) h fun hs' hm => hp hs' (by
      rw [headersParts]; exact List.mem_append_left _ hm)).imp ?_
    rintro n ⟨b, hc, hf, hw⟩
    exact ⟨0, h, b, rfl, hc, hf, hw⟩
  | h :: h2 :: hs, _, hp => by
    rw [maxWritesEither]
    refine ((reaches_body (t := t) (mode := mode) h fun hs' hm => hp hs' (by
        rw [headersParts]; exact List.mem_append_left _ hm)).union
      (reaches_either (t := t) (mode := mode) (h2 :: hs) (by simp) fun hs' hm => hp hs' (by
        rw [headersParts]; exact List.mem_append_right _ hm))).imp ?_
    rintro n (⟨b, hc, hf, hw⟩ | ⟨i, h', b, hi, hc, hf, hw⟩)
    · exact ⟨0, h, b, rfl, hc, hf, hw⟩
    · exact ⟨i + 1, h', b, hi, hc, hf, hw⟩
end

end Dlhn
