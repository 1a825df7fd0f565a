import Verif.Spec.BodyGrammar
import Verif.Proof.Forms
import Verif.Proof.BTree
/-! # `Body::deserialize` accepts exactly the grammar -/
namespace Dlhn

namespace De.Parses

open Spec PrefixVarint
open Prog (exec)

variable {α β : Type} {t : Target}

theorem alloc {p : Prog DeErr α} {R : α → List UInt8 → Prop} (hp : Parses t p R) (n : Nat) :
    Parses t (.alloc n p) fun v u => t.allocate n = none ∧ R v u := by
  intro fin bs v rest
  rw [Prog.exec]
  cases h : t.allocate n with
  | some q => simp
  | none => simp only [true_and]; exact hp fin bs v rest

theorem joined_bytes : ∀ (v u : List UInt8), Joined (fun x w => w = [x]) v u ↔ u = v
  | [], u => by simp [Joined]
  | x :: v, u => by
    simp only [Joined, joined_bytes v]
    constructor
    · rintro ⟨_, _, rfl, rfl, rfl⟩; rfl
    · rintro rfl; exact ⟨[x], v, rfl, rfl, rfl⟩

theorem vecU8 (ht : t.ptr = .w64) : Parses t (deVecU8 t) fun v u => Prefixed v u := by
  refine (u64.bind fun c => u8.times (t.asUsize c)).congr fun v u => ⟨?_, ?_⟩
  · rintro ⟨l, h1, rfl⟩
    have hlt : v.length < 2 ^ 64 := varintDecode_lt (by simp) ((number_iff 64 (by simp) _ _).mp h1)
    have hc : (UInt64.ofNat v.length).toNat = v.length := by
      rw [UInt64.toNat_ofNat', Nat.mod_eq_of_lt hlt]
    exact ⟨UInt64.ofNat v.length, l, v, rfl, by rw [hc]; exact h1,
      by rw [asUsize_w64 ht, hc], (joined_bytes v v).mpr rfl⟩
  · rintro ⟨c, l, w, rfl, h1, h2, h3⟩
    rw [asUsize_w64 ht] at h2
    rw [joined_bytes] at h3
    subst h3
    exact ⟨l, by rw [h2]; exact h1, rfl⟩

/-- With the count in full, as for arrays. -/
theorem countedFull {p : Nat → Prog DeErr β} {R : Nat → β → List UInt8 → Prop}
    (hp : ∀ n, Parses t (p n) (R n)) :
    Parses t (deU64 >>= fun c => p c.toNat) fun v bs =>
      ∃ n l u, bs = l ++ u ∧ Number 64 n l ∧ R n v u := by
  refine (u64.bind fun c => hp c.toNat).congr fun v u => ⟨?_, ?_⟩
  · rintro ⟨n, l, w, rfl, h1, h2⟩
    have hlt : n < 2 ^ 64 := varintDecode_lt (by simp) ((number_iff 64 (by simp) _ _).mp h1)
    have hc : (UInt64.ofNat n).toNat = n := by
      rw [UInt64.toNat_ofNat', Nat.mod_eq_of_lt hlt]
    exact ⟨UInt64.ofNat n, l, w, rfl, by rw [hc]; exact h1, by rw [hc]; exact h2⟩
  · rintro ⟨c, l, w, rfl, h1, h2⟩
    exact ⟨c.toNat, l, w, rfl, h1, h2⟩

theorem entries {p : Prog DeErr α} {R : α → List UInt8 → Prop} (ht : t.ptr = .w64)
    (hp : Parses t p R) (n : Nat) (buf : List (String × α)) :
    Parses t (Body.insertLoop t p n buf) fun m u => ∃ es, es.length = n ∧ m = insertAll buf es ∧
      Joined (fun e x => ∃ y z, x = y ++ z ∧ Prefixed (utf8 e.1) y ∧ R e.2 z) es u := by
  induction n generalizing buf with
  | zero =>
    rw [Body.insertLoop]
    refine (ret buf).congr fun m u => ⟨?_, ?_⟩
    · rintro ⟨es, h1, rfl, h2⟩
      cases List.length_eq_zero_iff.mp h1
      exact ⟨rfl, h2⟩
    · rintro ⟨rfl, rfl⟩; exact ⟨[], rfl, rfl, rfl⟩
  | succ n ih =>
    rw [Body.insertLoop]
    refine ((string ht).bind fun k => hp.bind fun v => ih (btreeInsert k v buf)).congr
      fun m u => ⟨?_, ?_⟩
    · rintro ⟨es, h1, rfl, h2⟩
      cases es with
      | nil => simp at h1
      | cons e es =>
        obtain ⟨x, w, rfl, ⟨y, z, rfl, h3, h4⟩, h5⟩ := h2
        refine ⟨e.1, y, z ++ w, by simp, h3, e.2, z, w, rfl, h4, es, by simpa using h1, rfl, h5⟩
    · rintro ⟨k, y, _, rfl, h3, v, z, w, rfl, h4, es, h1, rfl, h5⟩
      exact ⟨(k, v) :: es, by simp [h1], rfl, y ++ z, w, by simp, ⟨y, z, rfl, h3, h4⟩, h5⟩

theorem bigDecimal (ht : t.ptr = .w64) : Parses t (BigDecimal.de t) fun v bs =>
    ((v.signedBytes = [] ∧ v.scale = 0 ∧ Prefixed [] bs) ∨
       (v.signedBytes ≠ [] ∧ ∃ l u, bs = l ++ u ∧ Prefixed v.signedBytes l ∧
          Number 64 (zigzag v.scale.toInt) u)) := by
  refine ((vecU8 ht).bind (S := fun d v u => if d = [] then v = ⟨[], 0⟩ ∧ u = [] else
    ∃ s : Int64, v = ⟨d, s⟩ ∧ Number 64 (zigzag s.toInt) u) fun d => ?_).congr fun v u => ⟨?_, ?_⟩
  · cases d with
    | nil => exact (ret _).congr fun v u => by simp
    | cons x d => exact (i64.wrap _).congr fun v u => by simp
  · rintro (⟨h1, h2, h3⟩ | ⟨h1, l, w, rfl, h2, h3⟩)
    · refine ⟨[], u, [], by simp, h3, ?_⟩
      rw [if_pos rfl]
      refine ⟨?_, rfl⟩
      obtain ⟨b, s⟩ := v
      simp only at h1 h2
      rw [h1, h2]
    · refine ⟨v.signedBytes, l, w, rfl, h2, ?_⟩
      rw [if_neg h1]
      exact ⟨v.scale, rfl, h3⟩
  · rintro ⟨d, l, w, rfl, h1, h2⟩
    split at h2
    · rename_i hd
      obtain ⟨rfl, rfl⟩ := h2
      subst hd
      exact .inl ⟨rfl, rfl, by simpa using h1⟩
    · rename_i hd
      obtain ⟨s, rfl, h3⟩ := h2
      exact .inr ⟨hd, l, w, rfl, h1, h3⟩

theorem addYear (mode : BuildMode) (y z : Int32) : addI32 mode y DATE_YEAR_OFFSET = some z ↔
    z = y + 2000 ∧ (mode = .debug → y.toInt + 2000 < 2 ^ 31) := by
  have hy := y.le_toInt
  have h2 : (DATE_YEAR_OFFSET).toInt = 2000 := by decide
  cases mode
  · simp only [addI32, h2]
    split
    · rename_i h
      simp only [Option.some.injEq, forall_const]
      constructor
      · rintro rfl; exact ⟨rfl, h.2⟩
      · rintro ⟨rfl, -⟩; rfl
    · rename_i h
      simp only [forall_const]
      constructor
      · intro h; cases h
      · rintro ⟨-, h'⟩
        exact (h ⟨by omega, h'⟩).elim
  · simp only [addI32, Option.some.injEq]
    constructor
    · rintro rfl; exact ⟨rfl, fun h => by cases h⟩
    · rintro ⟨rfl, -⟩; rfl

theorem addDay (mode : BuildMode) (y z : UInt16) : addU16 mode y DATE_ORDINAL_OFFSET = some z ↔
    z = y + 1 ∧ (mode = .debug → y.toNat + 1 < 2 ^ 16) := by
  have h2 : (DATE_ORDINAL_OFFSET).toNat = 1 := by decide
  cases mode
  · simp only [addU16, h2]
    split
    · rename_i h
      simp only [Option.some.injEq, forall_const]
      constructor
      · rintro rfl; exact ⟨rfl, h⟩
      · rintro ⟨rfl, -⟩; rfl
    · rename_i h
      simp only [forall_const]
      constructor
      · intro h; cases h
      · rintro ⟨-, h'⟩
        exact (h h').elim
  · simp only [addU16, Option.some.injEq]
    constructor
    · rintro rfl; exact ⟨rfl, fun h => by cases h⟩
    · rintro ⟨rfl, -⟩; rfl

theorem date (mode : BuildMode) : Parses t (Date.de mode) fun d u => DateDenotes mode d u := by
  refine (i32.bind (S := fun y d u => ∃ o : UInt16, Number 16 o.toNat u ∧ d.year = y + 2000 ∧
    d.ordinal = o + 1 ∧ (mode = .debug → y.toInt + 2000 < 2 ^ 31 ∧ o.toNat + 1 < 2 ^ 16))
    fun y => ?_).congr fun d u => ⟨?_, ?_⟩
  · cases hy : addI32 mode y DATE_YEAR_OFFSET with
    | none =>
      refine (never ?_).congr fun d u => ?_
      · intro fin bs v rest h; cases h
      · simp only [iff_false]
        rintro ⟨o, -, h1, -, h2⟩
        rw [(addYear mode y d.year).mpr ⟨h1, fun h => (h2 h).1⟩] at hy
        cases hy
    | some year =>
      obtain ⟨rfl, hy'⟩ := (addYear mode y year).mp hy
      refine (u16.bind (S := fun o d u => u = [] ∧ d.year = y + 2000 ∧ d.ordinal = o + 1 ∧
        (mode = .debug → o.toNat + 1 < 2 ^ 16)) fun o => ?_).congr fun d u => ⟨?_, ?_⟩
      · cases ho : addU16 mode o DATE_ORDINAL_OFFSET with
        | none =>
          refine (never ?_).congr fun d u => ?_
          · intro fin bs v rest h; simp only [ho] at h; cases h
          · simp only [iff_false]
            rintro ⟨-, -, h1, h2⟩
            rw [(addDay mode o d.ordinal).mpr ⟨h1, h2⟩] at ho
            cases ho
        | some ordinal =>
          simp only [ho]
          obtain ⟨rfl, ho'⟩ := (addDay mode o ordinal).mp ho
          refine (ret _).congr fun d u => ⟨?_, ?_⟩
          · rintro ⟨rfl, h1, h2, -⟩
            obtain ⟨a, b⟩ := d
            simp only at h1 h2
            rw [h1, h2]
            exact ⟨rfl, rfl⟩
          · rintro ⟨rfl, rfl⟩; exact ⟨rfl, rfl, rfl, ho'⟩
      · rintro ⟨o, h1, h2, h3, h4⟩
        exact ⟨o, u, [], by simp, h1, rfl, h2, h3, fun h => (h4 h).2⟩
      · rintro ⟨o, x, y, rfl, h1, rfl, h2, h3, h4⟩
        exact ⟨o, by simpa using h1, h2, h3, fun h => ⟨hy' h, h4 h⟩⟩
  · rintro ⟨y, o, l, w, rfl, h1, h2, h3, h4, h5⟩
    exact ⟨y, l, w, rfl, h1, o, h2, h3, h4, h5⟩
  · rintro ⟨y, l, w, rfl, h1, o, h2, h3, h4, h5⟩
    exact ⟨y, o, l, w, rfl, h1, h2, h3, h4, h5⟩

end De.Parses

namespace Body

open Spec
open Dlhn.De (Parses)

theorem collected_iff {α : Type} (es m : List (String × α)) : Collected es m ↔ m = insertAll [] es := by
  have ha := ascending_insertAll es (m := []) List.Pairwise.nil
  constructor
  · rintro ⟨h1, h2⟩
    exact ascending_ext h1 ha fun e => by rw [h2, mem_insertAll]
  · rintro rfl
    exact ⟨ha, mem_insertAll es⟩

theorem room_iff (t : Target) (size n : Nat) : t.allocate (n * size) = Option.none ↔ Room t size n := by
  have hp : 0 < 2 ^ (t.ptr.bits - 1) := Nat.two_pow_pos _
  rw [Target.allocate, Target.isizeMax, Room]
  split
  · simp only [reduceCtorEq, false_iff]; omega
  · split
    · simp only [reduceCtorEq, false_iff]; omega
    · simp only [true_iff]; omega

variable {t : Target}

mutual
theorem parses_body (ht : t.ptr = .w64) (hm : 4096 ≤ t.memLimit) (mode : BuildMode) (size : Nat) :
    ∀ h : Header, Parses t (de t mode size h) (BodyDenotes mode (Room t size) h)
  | .unit => by rw [de]; exact (Parses.ret Body.unit).congr fun v u => by rw [BodyDenotes]
  | .optional h => by
    rw [de]
    refine (Parses.bool.bind (S := fun b v u => if b then ∃ w, v = .some w ∧
      BodyDenotes mode (Room t size) h w u else v = .none ∧ u = []) fun b => ?_).congr fun v u => ?_
    · cases b
      · exact (Parses.ret Body.none).congr fun v u => by simp
      · exact ((parses_body ht hm mode size h).wrap Body.some).congr fun v u => by simp
    · rw [BodyDenotes]
      constructor
      · rintro (⟨rfl, rfl⟩ | ⟨w, x, rfl, rfl, h⟩)
        · exact ⟨false, [0], [], rfl, .inl ⟨rfl, rfl⟩, by simp⟩
        · exact ⟨true, [1], x, rfl, .inr ⟨rfl, rfl⟩, by simpa using h⟩
      · rintro ⟨b, x, y, rfl, ⟨rfl, rfl⟩ | ⟨rfl, rfl⟩, h⟩
        · simp only [Bool.false_eq_true, if_false] at h
          obtain ⟨rfl, rfl⟩ := h
          exact .inl ⟨rfl, rfl⟩
        · simp only [if_true] at h
          obtain ⟨w, rfl, h⟩ := h
          exact .inr ⟨w, y, rfl, rfl, h⟩
  | .boolean => by
    rw [de]
    refine (Parses.bool.wrap Body.boolean).congr fun v u => ?_
    rw [BodyDenotes]
    constructor
    · rintro (⟨rfl, rfl⟩ | ⟨rfl, rfl⟩)
      · exact ⟨_, rfl, .inl ⟨rfl, rfl⟩⟩
      · exact ⟨_, rfl, .inr ⟨rfl, rfl⟩⟩
    · rintro ⟨b, rfl, ⟨rfl, rfl⟩ | ⟨rfl, rfl⟩⟩
      · exact .inl ⟨rfl, rfl⟩
      · exact .inr ⟨rfl, rfl⟩
  | .uint8 => by rw [de]; exact (Parses.u8.wrap Body.uint8).congr fun v u => by rw [BodyDenotes]
  | .uint16 => by rw [de]; exact (Parses.u16.wrap Body.uint16).congr fun v u => by rw [BodyDenotes]
  | .uint32 => by rw [de]; exact (Parses.u32.wrap Body.uint32).congr fun v u => by rw [BodyDenotes]
  | .uint64 => by rw [de]; exact (Parses.u64.wrap Body.uint64).congr fun v u => by rw [BodyDenotes]
  | .int8 => by rw [de]; exact (Parses.i8.wrap Body.int8).congr fun v u => by rw [BodyDenotes]
  | .int16 => by rw [de]; exact (Parses.i16.wrap Body.int16).congr fun v u => by rw [BodyDenotes]
  | .int32 => by rw [de]; exact (Parses.i32.wrap Body.int32).congr fun v u => by rw [BodyDenotes]
  | .int64 => by rw [de]; exact (Parses.i64.wrap Body.int64).congr fun v u => by rw [BodyDenotes]
  | .float32 => by
    rw [de]; exact (Parses.f32.wrap Body.float32).congr fun v u => by rw [BodyDenotes]
  | .float64 => by
    rw [de]; exact (Parses.f64.wrap Body.float64).congr fun v u => by rw [BodyDenotes]
  | .bigUInt => by
    rw [de]
    refine (((Parses.vecU8 ht).wrap BigUint.mk).wrap Body.bigUInt).congr fun v u => ?_
    rw [BodyDenotes]
    constructor
    · rintro ⟨x, rfl, h⟩; exact ⟨x, rfl, x.bytes, rfl, h⟩
    · rintro ⟨x, rfl, y, rfl, h⟩; exact ⟨⟨y⟩, rfl, h⟩
  | .bigInt => by
    rw [de]
    refine (((Parses.vecU8 ht).wrap BigInt.mk).wrap Body.bigInt).congr fun v u => ?_
    rw [BodyDenotes]
    constructor
    · rintro ⟨x, rfl, h⟩; exact ⟨x, rfl, x.bytes, rfl, h⟩
    · rintro ⟨x, rfl, y, rfl, h⟩; exact ⟨⟨y⟩, rfl, h⟩
  | .bigDecimal => by
    rw [de]; exact ((Parses.bigDecimal ht).wrap Body.bigDecimal).congr fun v u => by rw [BodyDenotes]
  | .string => by
    rw [de]; exact ((Parses.string ht).wrap Body.string).congr fun v u => by rw [BodyDenotes]
  | .binary => by
    rw [de]; exact ((Parses.byteBuf ht hm).wrap Body.binary).congr fun v u => by rw [BodyDenotes]
  | .array h => by
    have hfull := Parses.countedFull fun n =>
      ((((parses_body ht hm mode size h).times n).wrap Body.array).alloc (n * size))
    have he : de t mode size (.array h) = De.deU64 >>= fun c => (.alloc (c.toNat * size) do
        let buf ← De.times c.toNat (de t mode size h)
        pure (Body.array buf)) := by
      rw [de]
      congr 1
      funext c
      rw [De.asUsize_w64 ht]
    rw [he]
    refine hfull.congr fun v u => ?_
    rw [BodyDenotes]
    constructor
    · rintro ⟨cs, l, x, rfl, rfl, h1, h2, h3⟩
      exact ⟨cs.length, l, x, rfl, h1, (room_iff t size _).mpr h3, cs, rfl, rfl, h2⟩
    · rintro ⟨n, l, x, rfl, h1, h3, cs, rfl, rfl, h2⟩
      exact ⟨cs, l, x, rfl, rfl, h1, h2, (room_iff t size _).mp h3⟩
  | .tuple hs => by
    rw [de]
    refine (((parses_all ht hm mode size hs).wrap Body.tuple).alloc (hs.length * size)).congr
      fun v u => ?_
    rw [BodyDenotes, room_iff]
    constructor
    · rintro ⟨cs, rfl, h1, h2⟩; exact ⟨h2, cs, rfl, h1⟩
    · rintro ⟨h2, cs, rfl, h1⟩; exact ⟨cs, rfl, h1, h2⟩
  | .map h => by
    rw [de]
    refine (Parses.countedFull fun n =>
      (Parses.entries ht (parses_body ht hm mode size h) n []).wrap Body.map).congr fun v u => ?_
    rw [BodyDenotes]
    constructor
    · rintro ⟨es, m, l, x, rfl, h1, rfl, h2, h3⟩
      rw [collected_iff] at h1
      exact ⟨es.length, l, x, rfl, h2, m, rfl, es, rfl, h1, h3⟩
    · rintro ⟨n, l, x, rfl, h2, m, rfl, es, rfl, h1, h3⟩
      exact ⟨es, m, l, x, rfl, (collected_iff es m).mpr h1, rfl, h2, h3⟩
  | .enum hs => by
    rw [de]
    refine (Parses.u32.bind fun i => (parses_nth ht hm mode size hs i.toNat).wrap (Body.enum i)).congr
      fun v u => ?_
    rw [BodyDenotes]
    constructor
    · rintro ⟨i, c, l, x, rfl, rfl, h1, h2⟩; exact ⟨i, l, x, rfl, h1, c, rfl, h2⟩
    · rintro ⟨i, l, x, rfl, h1, c, rfl, h2⟩; exact ⟨i, c, l, x, rfl, rfl, h1, h2⟩
  | .date => by
    rw [de]; exact ((Parses.date mode).wrap Body.date).congr fun v u => by rw [BodyDenotes]
  | .dateTime => by
    rw [de]
    refine ((Parses.i64.bind fun s => Parses.u32.wrap (DateTime.mk s)).wrap Body.dateTime).congr
      fun v u => ?_
    rw [BodyDenotes]
    constructor
    · rintro ⟨d, l, x, rfl, rfl, h1, h2⟩; exact ⟨d, rfl, d.1, l, x, rfl, h1, d.2, rfl, h2⟩
    · rintro ⟨d, rfl, s, l, x, rfl, h1, n, rfl, h2⟩; exact ⟨_, l, x, rfl, rfl, h1, h2⟩
theorem parses_all (ht : t.ptr = .w64) (hm : 4096 ≤ t.memLimit) (mode : BuildMode) (size : Nat) :
    ∀ hs : List Header, Parses t (deAll t mode size hs) (BodiesDenote mode (Room t size) hs)
  | [] => by rw [deAll]; exact (Parses.ret []).congr fun v u => by rw [BodiesDenote]
  | h :: hs => by
    rw [deAll]
    refine ((parses_body ht hm mode size h).bind fun w =>
      (parses_all ht hm mode size hs).wrap (w :: ·)).congr fun v u => ?_
    rw [BodiesDenote]
    constructor
    · rintro ⟨w, ws, x, y, rfl, rfl, h1, h2⟩; exact ⟨w, x, y, rfl, h1, ws, rfl, h2⟩
    · rintro ⟨w, x, y, rfl, h1, ws, rfl, h2⟩; exact ⟨w, ws, x, y, rfl, rfl, h1, h2⟩
theorem parses_nth (ht : t.ptr = .w64) (hm : 4096 ≤ t.memLimit) (mode : BuildMode) (size : Nat) :
    ∀ (hs : List Header) (n : Nat),
      Parses t (deNth t mode size n hs) (NthDenotes mode (Room t size) hs n)
  | [], _ => by
    rw [deNth]
    exact (Parses.never (by intro _ _ _ _ h; cases h)).congr fun v u => by rw [NthDenotes]
  | h :: _, 0 => by
    rw [deNth]
    exact (parses_body ht hm mode size h).congr fun v u => by rw [NthDenotes]
  | _ :: hs, n + 1 => by
    rw [deNth]
    exact (parses_nth ht hm mode size hs n).congr fun v u => by rw [NthDenotes]
end

end Body
end Dlhn

namespace Dlhn.Spec

theorem bodiesWire_flatMap : ∀ bs : List Body, bodiesWire bs = bs.flatMap bodyWire
  | [] => by rw [bodiesWire]; rfl
  | b :: bs => by rw [bodiesWire, List.flatMap_cons, bodiesWire_flatMap bs]

theorem close_narrow {narrow : Bool} (h : narrow = true) (w : Nat) (hw : w = 16 ∨ w = 32 ∨ w = 64)
    (n : Nat) (u : List UInt8) (hu : Number w n u) : Close (narrow = true) (varint w n) u :=
  close_number _ w hw n (.inl h) u hu

theorem close_date {narrow : Bool} (hn : narrow = true) {mode : BuildMode} {d : Date}
    {u : List UInt8} (h : DateDenotes mode d u) : Close (narrow = true) (dateWire d) u := by
  obtain ⟨y, o, l, x, rfl, h1, h2, h3, h4, -⟩ := h
  have e1 : d.year - 2000 = y := by rw [h3, Int32.add_sub_cancel]
  have e2 : d.ordinal - 1 = o := by rw [h4, UInt16.add_sub_cancel]
  rw [dateWire, e1, e2]
  exact (close_narrow hn 32 (by simp) _ l h1).append (close_narrow hn 16 (by simp) _ x h2)

theorem nth_lt {mode : BuildMode} {room : Nat → Prop} : ∀ (hs : List Header) (n : Nat) (b : Body)
    (u : List UInt8), NthDenotes mode room hs n b u → n < hs.length
  | [], n, b, u, h => by rw [NthDenotes] at h; exact h.elim
  | _ :: _, 0, b, u, _ => by simp
  | _ :: hs, n + 1, b, u, h => by
    rw [NthDenotes] at h
    have := nth_lt hs n b u h
    simp; omega

mutual
theorem close_body (narrow : Bool) (mode : BuildMode) (room : Nat → Prop) : ∀ h : Header,
    NoMap narrow h → ∀ b u, BodyDenotes mode room h b u → Close (narrow = true) (bodyWire b) u
  | .unit, _, b, u, h => by
    rw [BodyDenotes] at h
    obtain ⟨rfl, rfl⟩ := h
    rw [bodyWire]; exact .refl _
  | .optional k, hp, b, u, h => by
    rw [BodyDenotes] at h
    rw [NoMap] at hp
    rcases h with ⟨rfl, rfl⟩ | ⟨c, x, rfl, rfl, h⟩ <;> rw [bodyWire]
    · exact .refl _
    · exact (Close.refl [1]).append (close_body narrow mode room k hp c x h)
  | .boolean, _, b, u, h => by
    rw [BodyDenotes] at h
    rcases h with ⟨rfl, rfl⟩ | ⟨rfl, rfl⟩ <;> rw [bodyWire] <;> exact .refl _
  | .uint8, _, b, u, h => by
    rw [BodyDenotes] at h
    obtain ⟨x, rfl, rfl⟩ := h
    rw [bodyWire]; exact .refl _
  | .uint16, hp, b, u, h => by
    rw [BodyDenotes] at h
    rw [NoMap] at hp
    obtain ⟨x, rfl, h⟩ := h
    rw [bodyWire]; exact close_narrow hp 16 (by simp) _ u h
  | .uint32, hp, b, u, h => by
    rw [BodyDenotes] at h
    rw [NoMap] at hp
    obtain ⟨x, rfl, h⟩ := h
    rw [bodyWire]; exact close_narrow hp 32 (by simp) _ u h
  | .uint64, _, b, u, h => by
    rw [BodyDenotes] at h
    obtain ⟨x, rfl, h⟩ := h
    rw [bodyWire]; exact close_number _ 64 (by simp) _ (by simp) u h
  | .int8, _, b, u, h => by
    rw [BodyDenotes] at h
    obtain ⟨x, rfl, rfl⟩ := h
    rw [bodyWire]; exact .refl _
  | .int16, hp, b, u, h => by
    rw [BodyDenotes] at h
    rw [NoMap] at hp
    obtain ⟨x, rfl, h⟩ := h
    rw [bodyWire]; exact close_narrow hp 16 (by simp) _ u h
  | .int32, hp, b, u, h => by
    rw [BodyDenotes] at h
    rw [NoMap] at hp
    obtain ⟨x, rfl, h⟩ := h
    rw [bodyWire]; exact close_narrow hp 32 (by simp) _ u h
  | .int64, _, b, u, h => by
    rw [BodyDenotes] at h
    obtain ⟨x, rfl, h⟩ := h
    rw [bodyWire]; exact close_number _ 64 (by simp) _ (by simp) u h
  | .float32, _, b, u, h => by
    rw [BodyDenotes] at h
    obtain ⟨x, rfl, rfl⟩ := h
    rw [bodyWire]; exact .refl _
  | .float64, _, b, u, h => by
    rw [BodyDenotes] at h
    obtain ⟨x, rfl, rfl⟩ := h
    rw [bodyWire]; exact .refl _
  | .bigUInt, _, b, u, h => by
    rw [BodyDenotes] at h
    obtain ⟨x, rfl, h⟩ := h
    rw [bodyWire]; exact close_sized _ _ u h
  | .bigInt, _, b, u, h => by
    rw [BodyDenotes] at h
    obtain ⟨x, rfl, h⟩ := h
    rw [bodyWire]; exact close_sized _ _ u h
  | .bigDecimal, _, b, u, h => by
    rw [BodyDenotes] at h
    obtain ⟨v, rfl, h⟩ := h
    rw [bodyWire, decimalWire]
    rcases h with ⟨h1, -, h2⟩ | ⟨h1, l, x, rfl, h2, h3⟩
    · rw [if_pos h1]
      have := close_sized (narrow = true) _ u h2
      have e : block [] = [0] := by decide +kernel
      rw [e] at this
      exact this
    · rw [if_neg h1]
      exact (close_sized _ _ l h2).append (close_number _ 64 (by simp) _ (by simp) x h3)
  | .string, _, b, u, h => by
    rw [BodyDenotes] at h
    obtain ⟨x, rfl, h⟩ := h
    rw [bodyWire]; exact close_sized _ _ u h
  | .binary, _, b, u, h => by
    rw [BodyDenotes] at h
    obtain ⟨x, rfl, h⟩ := h
    rw [bodyWire]; exact close_sized _ _ u h
  | .array k, hp, b, u, h => by
    rw [BodyDenotes] at h
    rw [NoMap] at hp
    obtain ⟨cs, l, x, rfl, rfl, h1, h2, -⟩ := h
    rw [bodyWire, bodiesWire_flatMap]
    exact (close_number _ 64 (by simp) _ (by simp) l h1).append
      (close_all _ _ _ (close_body narrow mode room k hp) cs x h2)
  | .tuple ks, hp, b, u, h => by
    rw [BodyDenotes] at h
    rw [NoMap] at hp
    obtain ⟨cs, rfl, h, -⟩ := h
    rw [bodyWire]; exact close_bodies narrow mode room ks hp cs u h
  | .map k, hp, b, u, h => by rw [NoMap] at hp; exact hp.elim
  | .enum ks, hp, b, u, h => by
    rw [BodyDenotes] at h
    rw [NoMap] at hp
    obtain ⟨i, c, l, x, rfl, rfl, h1, h2⟩ := h
    rw [bodyWire]
    refine (close_number _ 32 (by simp) _ (hp.1.imp_right fun h => .inr ?_) l h1).append
      (close_nth narrow mode room ks hp.2 i.toNat c x h2)
    have := nth_lt ks _ _ _ h2
    exact (PrefixVarint.groups_le_iff 3 _).mpr (by omega)
  | .date, hp, b, u, h => by
    rw [BodyDenotes] at h
    rw [NoMap] at hp
    obtain ⟨d, rfl, h⟩ := h
    rw [bodyWire]; exact close_date hp h
  | .dateTime, hp, b, u, h => by
    rw [BodyDenotes] at h
    rw [NoMap] at hp
    obtain ⟨d, l, x, rfl, rfl, h1, h2⟩ := h
    rw [bodyWire, dateTimeWire]
    exact (close_number _ 64 (by simp) _ (by simp) l h1).append
      (close_narrow hp 32 (by simp) _ x h2)
theorem close_bodies (narrow : Bool) (mode : BuildMode) (room : Nat → Prop) : ∀ hs : List Header,
    AllNoMap narrow hs → ∀ cs u, BodiesDenote mode room hs cs u →
      Close (narrow = true) (bodiesWire cs) u
  | [], _, cs, u, h => by
    rw [BodiesDenote] at h
    obtain ⟨rfl, rfl⟩ := h
    rw [bodiesWire]; exact .refl _
  | k :: ks, hp, cs, u, h => by
    rw [BodiesDenote] at h
    rw [AllNoMap] at hp
    obtain ⟨d, ds, x, y, rfl, rfl, h1, h2⟩ := h
    rw [bodiesWire]
    exact (close_body narrow mode room k hp.1 d x h1).append
      (close_bodies narrow mode room ks hp.2 ds y h2)
theorem close_nth (narrow : Bool) (mode : BuildMode) (room : Nat → Prop) : ∀ hs : List Header,
    AllNoMap narrow hs → ∀ n b u, NthDenotes mode room hs n b u →
      Close (narrow = true) (bodyWire b) u
  | [], _, n, b, u, h => by rw [NthDenotes] at h; exact h.elim
  | k :: _, hp, 0, b, u, h => by
    rw [NthDenotes] at h
    rw [AllNoMap] at hp
    exact close_body narrow mode room k hp.1 b u h
  | _ :: ks, hp, n + 1, b, u, h => by
    rw [NthDenotes] at h
    rw [AllNoMap] at hp
    exact close_nth narrow mode room ks hp.2 n b u h
end

end Dlhn.Spec
