import Verif.Spec.TypesAny
import Verif.Proof.GrammarAny
import Verif.Proof.DeriveGrammar
/-! # `Body::deserialize` and `T::deserialize` accept exactly the grammar, on every target -/
namespace Dlhn

namespace De.ParsesIn

open Spec PrefixVarint
open Prog (exec)

variable {α β : Type} {t : Target}

theorem alloc {p : Prog DeErr α} {R : α → List UInt8 → List UInt8 → Prop} (hp : ParsesIn t p R)
    (n : Nat) : ParsesIn t (.alloc n p) fun v u r => t.allocate n = none ∧ R v u r := by
  intro bs v rest
  rw [Prog.exec]
  cases h : t.allocate n with
  | some q => simp
  | none => simp only [true_and]; exact hp bs v rest

/-- With the count as a `usize`. -/
theorem countedIn {p : Nat → Prog DeErr β} {R : Nat → β → List UInt8 → List UInt8 → Prop}
    (hp : ∀ n, ParsesIn t (p n) (R n)) :
    ParsesIn t (deU64 >>= fun c => p (t.asUsize c)) fun v bs r =>
      ∃ n l u, bs = l ++ u ∧ CountIn t.ptr.bits n l ∧ R n v u r := by
  refine (Parses.u64.inn.bind fun c => hp (t.asUsize c)).congr fun v u r => ⟨?_, ?_⟩
  · rintro ⟨n, l, w, rfl, ⟨m, h1, rfl⟩, h2⟩
    have hlt : m < 2 ^ 64 := varintDecode_lt (by simp) ((number_iff 64 (by simp) _ _).mp h1)
    have hc : (UInt64.ofNat m).toNat = m := by
      rw [UInt64.toNat_ofNat', Nat.mod_eq_of_lt hlt]
    exact ⟨UInt64.ofNat m, l, w, rfl, by rw [hc]; exact h1, by rw [Target.asUsize, hc]; exact h2⟩
  · rintro ⟨c, l, w, rfl, h1, h2⟩
    exact ⟨t.asUsize c, l, w, rfl, ⟨c.toNat, h1, rfl⟩, h2⟩

/-- With the count in full. -/
theorem countedFull {p : UInt64 → Prog DeErr β} {R : Nat → β → List UInt8 → List UInt8 → Prop}
    (hp : ∀ c : UInt64, ParsesIn t (p c) (R c.toNat)) :
    ParsesIn t (deU64 >>= p) fun v bs r =>
      ∃ n l u, bs = l ++ u ∧ Number 64 n l ∧ R n v u r := by
  refine (Parses.u64.inn.bind fun c => hp c).congr fun v u r => ⟨?_, ?_⟩
  · rintro ⟨n, l, w, rfl, h1, h2⟩
    have hlt : n < 2 ^ 64 := varintDecode_lt (by simp) ((number_iff 64 (by simp) _ _).mp h1)
    have hc : (UInt64.ofNat n).toNat = n := by
      rw [UInt64.toNat_ofNat', Nat.mod_eq_of_lt hlt]
    exact ⟨UInt64.ofNat n, l, w, rfl, by rw [hc]; exact h1, by rw [hc]; exact h2⟩
  · rintro ⟨c, l, w, rfl, h1, h2⟩
    exact ⟨c.toNat, l, w, rfl, h1, h2⟩

theorem vecU8 : ParsesIn t (deVecU8 t) fun v u _ => CountedIn t.ptr.bits v u := by
  refine (countedIn fun n => (Parses.u8.times n).inn).congr fun v u r => ⟨?_, ?_⟩
  · rintro ⟨l, h1, rfl⟩
    exact ⟨v.length, l, v, rfl, h1, rfl, (Parses.joined_bytes v v).mpr rfl⟩
  · rintro ⟨n, l, w, rfl, h1, h2, h3⟩
    rw [Parses.joined_bytes] at h3
    subst h3
    exact ⟨l, by rw [h2]; exact h1, rfl⟩

theorem insertLoop {p : Prog DeErr α} {R : α → List UInt8 → List UInt8 → Prop}
    (hp : ParsesIn t p R) (n : Nat) (buf : List (String × α)) :
    ParsesIn t (Body.insertLoop t p n buf) fun m u r => ∃ es, es.length = n ∧
      m = insertAll buf es ∧ JoinedIn (EntryIn t.ptr.bits R) es u r := by
  induction n generalizing buf with
  | zero =>
    rw [Body.insertLoop]
    refine (Parses.ret buf).inn.congr fun m u r => ⟨?_, ?_⟩
    · rintro ⟨es, h1, rfl, h2⟩
      cases List.length_eq_zero_iff.mp h1
      exact ⟨rfl, h2⟩
    · rintro ⟨rfl, rfl⟩; exact ⟨[], rfl, rfl, rfl⟩
  | succ n ih =>
    rw [Body.insertLoop]
    refine (string.bind fun k => hp.bind fun v => ih (btreeInsert k v buf)).congr
      fun m u r => ⟨?_, ?_⟩
    · rintro ⟨es, h1, rfl, h2⟩
      cases es with
      | nil => simp at h1
      | cons e es =>
        obtain ⟨x, w, rfl, ⟨y, z, rfl, h3, h4⟩, h5⟩ := h2
        exact ⟨e.1, y, z ++ w, by simp, by simpa using h3, e.2, z, w, rfl, h4, es,
          by simpa using h1, rfl, h5⟩
    · rintro ⟨k, y, _, rfl, h3, v, z, w, rfl, h4, es, h1, rfl, h5⟩
      exact ⟨(k, v) :: es, by simp [h1], rfl, y ++ z, w, by simp,
        ⟨y, z, rfl, by simpa using h3, h4⟩, h5⟩

theorem entries {p : Prog DeErr α} {R : α → List UInt8 → List UInt8 → Prop}
    (hp : ParsesIn t p R) (n : Nat) :
    ParsesIn t (Derive.deEntries t p n) fun es u r => es.length = n ∧
      JoinedIn (EntryIn t.ptr.bits R) es u r := by
  induction n with
  | zero =>
    rw [Derive.deEntries]
    refine (Parses.ret []).inn.congr fun m u r => ⟨?_, ?_⟩
    · rintro ⟨h1, h2⟩
      cases List.length_eq_zero_iff.mp h1
      exact ⟨rfl, h2⟩
    · rintro ⟨rfl, rfl⟩; exact ⟨rfl, rfl⟩
  | succ n ih =>
    rw [Derive.deEntries]
    refine (string.bind fun k => hp.bind fun v => ih.wrap fun es => (k, v) :: es).congr
      fun m u r => ⟨?_, ?_⟩
    · rintro ⟨h1, h2⟩
      cases m with
      | nil => simp at h1
      | cons e es =>
        obtain ⟨x, w, rfl, ⟨y, z, rfl, h3, h4⟩, h5⟩ := h2
        exact ⟨e.1, y, z ++ w, by simp, by simpa using h3, e.2, z, w, rfl, h4, es, rfl,
          by simpa using h1, h5⟩
    · rintro ⟨k, y, _, rfl, h3, v, z, w, rfl, h4, es, rfl, h1, h5⟩
      exact ⟨by simp [h1], y ++ z, w, by simp, ⟨y, z, rfl, by simpa using h3, h4⟩, h5⟩

theorem bigDecimal : ParsesIn t (BigDecimal.de t) fun v bs _ => DecimalIn t.ptr.bits v bs := by
  refine (vecU8.bind (S := fun d v u _ => if d = [] then v = ⟨[], 0⟩ ∧ u = [] else
    ∃ s : Int64, v = ⟨d, s⟩ ∧ Number 64 (zigzag s.toInt) u) fun d => ?_).congr
      fun v u r => ⟨?_, ?_⟩
  · cases d with
    | nil => exact (Parses.ret _).inn.congr fun v u r => by simp
    | cons x d => exact (Parses.i64.wrap _).inn.congr fun v u r => by simp
  · rintro (⟨h1, h2, h3⟩ | ⟨h1, l, w, rfl, h2, h3⟩)
    · refine ⟨[], u, [], by simp, h3, ?_⟩
      rw [if_pos rfl]
      refine ⟨?_, rfl⟩
      obtain ⟨b, s⟩ := v
      simp only at h1 h2
      rw [h1, h2]
    · refine ⟨v.signedBytes, l, w, rfl, h2, ?_⟩
      rw [if_neg h1]
      exact ⟨v.scale, rfl, h3⟩
  · rintro ⟨d, l, w, rfl, h1, h2⟩
    split at h2
    · rename_i hd
      obtain ⟨rfl, rfl⟩ := h2
      subst hd
      exact .inl ⟨rfl, rfl, by simpa using h1⟩
    · rename_i hd
      obtain ⟨s, rfl, h3⟩ := h2
      exact .inr ⟨hd, l, w, rfl, h1, h3⟩

theorem numDecimal : ParsesIn t (Format.deBigDecimal t) fun v bs _ =>
    ∃ body l u, bs = l ++ u ∧ signedValue body = v.intVal ∧ CountedIn t.ptr.bits body l ∧
      ((v.intVal = 0 ∧ v.scale = 0 ∧ u = []) ∨
        (v.intVal ≠ 0 ∧ Number 64 (zigzag v.scale.toInt) u)) := by
  refine (vecU8.bind (S := fun d v u _ => signedValue d = v.intVal ∧
    ((v.intVal = 0 ∧ v.scale = 0 ∧ u = []) ∨
        (v.intVal ≠ 0 ∧ Number 64 (zigzag v.scale.toInt) u))) fun d => ?_).congr
      fun v u r => ⟨?_, ?_⟩
  · simp only [Num.fromSignedBytesLe_eq]
    split
    · rename_i h
      refine (Parses.ret _).inn.congr fun v u r => ⟨?_, ?_⟩
      · rintro ⟨h1, ⟨h2, h3, h4⟩ | ⟨h2, -⟩⟩
        · obtain ⟨a, b⟩ := v
          simp only at h1 h3
          rw [h1, h3]
          exact ⟨rfl, h4⟩
        · exact (h2 (h1 ▸ h)).elim
      · rintro ⟨rfl, rfl⟩
        exact ⟨rfl, .inl ⟨h, rfl, rfl⟩⟩
    · rename_i h
      refine (Parses.i64.wrap _).inn.congr fun v u r => ⟨?_, ?_⟩
      · rintro ⟨h1, ⟨h2, -⟩ | ⟨-, h2⟩⟩
        · exact (h (h1.trans h2)).elim
        · obtain ⟨a, b⟩ := v
          simp only at h1 h2
          exact ⟨b, by rw [h1], h2⟩
      · rintro ⟨s, rfl, h2⟩
        exact ⟨rfl, .inr ⟨h, h2⟩⟩
  · rintro ⟨body, l, w, rfl, h1, h2, h3⟩; exact ⟨body, l, w, rfl, h2, h1, h3⟩
  · rintro ⟨body, l, w, rfl, h2, h1, h3⟩; exact ⟨body, l, w, rfl, h1, h2, h3⟩

end De.ParsesIn

namespace Body

open Spec
open Dlhn.De (Parses ParsesIn)

variable {t : Target}

mutual
theorem parsesIn_body (hm : 4096 ≤ t.memLimit) (mode : BuildMode) (size : Nat) :
    ∀ h : Header,
      ParsesIn t (de t mode size h) (BodyDenotesIn t.ptr.bits mode (Room t size) h)
  | .unit => by
    rw [de]
    exact (Parses.ret Body.unit).inn.congr fun v u r => by rw [BodyDenotesIn, BodyDenotes] <;> simp
  | .optional h => by
    rw [de]
    refine (Parses.bool.inn.bind (S := fun b v u r => if b then ∃ w, v = .some w ∧
      BodyDenotesIn t.ptr.bits mode (Room t size) h w u r else v = .none ∧ u = []) fun b => ?_).congr
        fun v u r => ?_
    · cases b
      · exact (Parses.ret Body.none).inn.congr fun v u r => by simp
      · exact ((parsesIn_body hm mode size h).wrap Body.some).congr fun v u r => by simp
    · rw [BodyDenotesIn]
      constructor
      · rintro (⟨rfl, rfl⟩ | ⟨w, x, rfl, rfl, h⟩)
        · exact ⟨false, [0], [], rfl, .inl ⟨rfl, rfl⟩, by simp⟩
        · exact ⟨true, [1], x, rfl, .inr ⟨rfl, rfl⟩, by simpa using h⟩
      · rintro ⟨b, x, y, rfl, ⟨rfl, rfl⟩ | ⟨rfl, rfl⟩, h⟩
        · simp only [Bool.false_eq_true, if_false] at h
          obtain ⟨rfl, rfl⟩ := h
          exact .inl ⟨rfl, rfl⟩
        · simp only [if_true] at h
          obtain ⟨w, rfl, h⟩ := h
          exact .inr ⟨w, y, rfl, rfl, h⟩
  | .boolean => by
    rw [de]
    refine (Parses.bool.wrap Body.boolean).inn.congr fun v u r => ?_
    rw [BodyDenotesIn, BodyDenotes]
    · constructor
      · rintro (⟨rfl, rfl⟩ | ⟨rfl, rfl⟩)
        · exact ⟨_, rfl, .inl ⟨rfl, rfl⟩⟩
        · exact ⟨_, rfl, .inr ⟨rfl, rfl⟩⟩
      · rintro ⟨b, rfl, ⟨rfl, rfl⟩ | ⟨rfl, rfl⟩⟩
        · exact .inl ⟨rfl, rfl⟩
        · exact .inr ⟨rfl, rfl⟩
    all_goals simp
  | .uint8 => by
    rw [de]
    exact (Parses.u8.wrap Body.uint8).inn.congr fun v u r => by rw [BodyDenotesIn, BodyDenotes] <;> simp
  | .uint16 => by
    rw [de]
    exact (Parses.u16.wrap Body.uint16).inn.congr fun v u r => by
      rw [BodyDenotesIn, BodyDenotes] <;> simp
  | .uint32 => by
    rw [de]
    exact (Parses.u32.wrap Body.uint32).inn.congr fun v u r => by
      rw [BodyDenotesIn, BodyDenotes] <;> simp
  | .uint64 => by
    rw [de]
    exact (Parses.u64.wrap Body.uint64).inn.congr fun v u r => by
      rw [BodyDenotesIn, BodyDenotes] <;> simp
  | .int8 => by
    rw [de]
    exact (Parses.i8.wrap Body.int8).inn.congr fun v u r => by rw [BodyDenotesIn, BodyDenotes] <;> simp
  | .int16 => by
    rw [de]
    exact (Parses.i16.wrap Body.int16).inn.congr fun v u r => by
      rw [BodyDenotesIn, BodyDenotes] <;> simp
  | .int32 => by
    rw [de]
    exact (Parses.i32.wrap Body.int32).inn.congr fun v u r => by
      rw [BodyDenotesIn, BodyDenotes] <;> simp
  | .int64 => by
    rw [de]
    exact (Parses.i64.wrap Body.int64).inn.congr fun v u r => by
      rw [BodyDenotesIn, BodyDenotes] <;> simp
  | .float32 => by
    rw [de]
    exact (Parses.f32.wrap Body.float32).inn.congr fun v u r => by
      rw [BodyDenotesIn, BodyDenotes] <;> simp
  | .float64 => by
    rw [de]
    exact (Parses.f64.wrap Body.float64).inn.congr fun v u r => by
      rw [BodyDenotesIn, BodyDenotes] <;> simp
  | .bigUInt => by
    rw [de]
    refine ((ParsesIn.vecU8.wrap BigUint.mk).wrap Body.bigUInt).congr fun v u r => ?_
    rw [BodyDenotesIn]
    constructor
    · rintro ⟨x, rfl, h⟩; exact ⟨x, rfl, x.bytes, rfl, h⟩
    · rintro ⟨x, rfl, y, rfl, h⟩; exact ⟨⟨y⟩, rfl, h⟩
  | .bigInt => by
    rw [de]
    refine ((ParsesIn.vecU8.wrap BigInt.mk).wrap Body.bigInt).congr fun v u r => ?_
    rw [BodyDenotesIn]
    constructor
    · rintro ⟨x, rfl, h⟩; exact ⟨x, rfl, x.bytes, rfl, h⟩
    · rintro ⟨x, rfl, y, rfl, h⟩; exact ⟨⟨y⟩, rfl, h⟩
  | .bigDecimal => by
    rw [de]
    exact (ParsesIn.bigDecimal.wrap Body.bigDecimal).congr fun v u r => by rw [BodyDenotesIn]
  | .string => by
    rw [de]; exact (ParsesIn.string.wrap Body.string).congr fun v u r => by rw [BodyDenotesIn]
  | .binary => by
    rw [de]; exact ((ParsesIn.byteBuf hm).wrap Body.binary).congr fun v u r => by rw [BodyDenotesIn]
  | .array h => by
    rw [de]
    have hfull := ParsesIn.countedFull (t := t)
      (p := fun c => .alloc (t.asUsize c * size) do
        let buf ← De.times c.toNat (de t mode size h)
        pure (Body.array buf))
      (R := fun n v u r => t.allocate (n % 2 ^ t.ptr.bits * size) = Option.none ∧
        ∃ cs, v = Body.array cs ∧ cs.length = n ∧
          JoinedIn (BodyDenotesIn t.ptr.bits mode (Room t size) h) cs u r)
      fun c => ((((parsesIn_body hm mode size h).times c.toNat).wrap Body.array).alloc
        (t.asUsize c * size))
    refine hfull.congr fun v u r => ?_
    rw [BodyDenotesIn]
    constructor
    · rintro ⟨cs, l, x, rfl, rfl, h1, h2, h3⟩
      exact ⟨cs.length, l, x, rfl, h1, (room_iff t size _).mpr h3, cs, rfl, rfl, h2⟩
    · rintro ⟨n, l, x, rfl, h1, h3, cs, rfl, rfl, h2⟩
      exact ⟨cs, l, x, rfl, rfl, h1, h2, (room_iff t size _).mp h3⟩
  | .tuple hs => by
    rw [de]
    refine (((parsesIn_all hm mode size hs).wrap Body.tuple).alloc (hs.length * size)).congr
      fun v u r => ?_
    rw [BodyDenotesIn, room_iff]
    constructor
    · rintro ⟨cs, rfl, h1, h2⟩; exact ⟨h2, cs, rfl, h1⟩
    · rintro ⟨h2, cs, rfl, h1⟩; exact ⟨cs, rfl, h1, h2⟩
  | .map h => by
    rw [de]
    refine (ParsesIn.countedFull
      (p := fun c => Body.insertLoop t (de t mode size h) c.toNat [] >>= fun m => pure (Body.map m))
      (R := fun n v u r => ∃ m, v = Body.map m ∧ ∃ es, es.length = n ∧ m = insertAll [] es ∧
        JoinedIn (EntryIn t.ptr.bits (BodyDenotesIn t.ptr.bits mode (Room t size) h)) es u r)
      fun c => ((parsesIn_body hm mode size h).insertLoop c.toNat []).wrap Body.map).congr
        fun v u r => ?_
    rw [BodyDenotesIn]
    constructor
    · rintro ⟨es, m, l, x, rfl, h1, rfl, h2, h3⟩
      rw [collected_iff] at h1
      exact ⟨es.length, l, x, rfl, h2, m, rfl, es, rfl, h1, h3⟩
    · rintro ⟨n, l, x, rfl, h2, m, rfl, es, rfl, h1, h3⟩
      exact ⟨es, m, l, x, rfl, (collected_iff es m).mpr h1, rfl, h2, h3⟩
  | .enum hs => by
    rw [de]
    refine (Parses.u32.inn.bind fun i =>
      (parsesIn_nth hm mode size hs i.toNat).wrap (Body.enum i)).congr fun v u r => ?_
    rw [BodyDenotesIn]
    constructor
    · rintro ⟨i, c, l, x, rfl, rfl, h1, h2⟩; exact ⟨i, l, x, rfl, h1, c, rfl, h2⟩
    · rintro ⟨i, l, x, rfl, h1, c, rfl, h2⟩; exact ⟨i, c, l, x, rfl, rfl, h1, h2⟩
  | .date => by
    rw [de]
    exact ((Parses.date mode).wrap Body.date).inn.congr fun v u r => by
      rw [BodyDenotesIn, BodyDenotes] <;> simp
  | .dateTime => by
    rw [de]
    refine ((Parses.i64.bind fun s => Parses.u32.wrap (DateTime.mk s)).wrap Body.dateTime).inn.congr
      fun v u r => ?_
    rw [BodyDenotesIn, BodyDenotes]
    · constructor
      · rintro ⟨d, l, x, rfl, rfl, h1, h2⟩; exact ⟨d, rfl, d.1, l, x, rfl, h1, d.2, rfl, h2⟩
      · rintro ⟨d, rfl, s, l, x, rfl, h1, n, rfl, h2⟩; exact ⟨_, l, x, rfl, rfl, h1, h2⟩
    all_goals simp
theorem parsesIn_all (hm : 4096 ≤ t.memLimit) (mode : BuildMode) (size : Nat) :
    ∀ hs : List Header,
      ParsesIn t (deAll t mode size hs) (BodiesDenoteIn t.ptr.bits mode (Room t size) hs)
  | [] => by rw [deAll]; exact (Parses.ret []).inn.congr fun v u r => by rw [BodiesDenoteIn]
  | h :: hs => by
    rw [deAll]
    refine ((parsesIn_body hm mode size h).bind fun w =>
      (parsesIn_all hm mode size hs).wrap (w :: ·)).congr fun v u r => ?_
    rw [BodiesDenoteIn]
    constructor
    · rintro ⟨w, ws, x, y, rfl, rfl, h1, h2⟩; exact ⟨w, x, y, rfl, h1, ws, rfl, h2⟩
    · rintro ⟨w, x, y, rfl, h1, ws, rfl, h2⟩; exact ⟨w, ws, x, y, rfl, rfl, h1, h2⟩
theorem parsesIn_nth (hm : 4096 ≤ t.memLimit) (mode : BuildMode) (size : Nat) :
    ∀ (hs : List Header) (n : Nat),
      ParsesIn t (deNth t mode size n hs) (NthDenotesIn t.ptr.bits mode (Room t size) hs n)
  | [], _ => by
    rw [deNth]
    exact (Parses.never (by intro _ _ _ _ h; cases h)).inn.congr fun v u r => by rw [NthDenotesIn]
  | h :: _, 0 => by
    rw [deNth]
    exact (parsesIn_body hm mode size h).congr fun v u r => by rw [NthDenotesIn]
  | _ :: hs, n + 1 => by
    rw [deNth]
    exact (parsesIn_nth hm mode size hs n).congr fun v u r => by rw [NthDenotesIn]
end

end Body
namespace Derive

open Spec hiding variantFields
open Dlhn.De (Parses ParsesIn)

variable {t : Target}

mutual
theorem parsesIn_ty (hm : 4096 ≤ t.memLimit) (mode : BuildMode) (env : Env) :
    ∀ T : RTy, ParsesIn t (deTy t mode env T) (TypeDenotesIn t.ptr.bits mode env T)
  | .option T => by
    rw [deTy]
    refine (Parses.bool.inn.bind (S := fun b (v : Option (Carrier T)) u r => if b then
      ∃ w, v = some w ∧ TypeDenotesIn t.ptr.bits mode env T w u r else v = none ∧ u = [])
        fun b => ?_).congr fun v u r => ?_
    · cases b
      · exact (Parses.ret none).inn.congr fun v u r => by simp
      · exact ((parsesIn_ty hm mode env T).wrap some).congr fun v u r => by simp
    · cases v with
      | none =>
        rw [TypeDenotesIn]
        constructor
        · rintro rfl; exact ⟨false, [0], [], rfl, .inl ⟨rfl, rfl⟩, by simp⟩
        · rintro ⟨b, x, y, rfl, ⟨rfl, rfl⟩ | ⟨rfl, rfl⟩, h⟩
          · simp only [Bool.false_eq_true, if_false, true_and] at h
            rw [h]; rfl
          · simp only [if_true] at h
            obtain ⟨w, h, -⟩ := h
            cases h
      | some v =>
        rw [TypeDenotesIn]
        constructor
        · rintro ⟨w, rfl, h⟩; exact ⟨true, [1], w, rfl, .inr ⟨rfl, rfl⟩, by simpa using h⟩
        · rintro ⟨b, x, y, rfl, ⟨rfl, rfl⟩ | ⟨rfl, rfl⟩, h⟩
          · simp at h
          · simp only [if_true] at h
            obtain ⟨w, h, h'⟩ := h
            cases h
            exact ⟨y, rfl, h'⟩
  | .unit => by
    rw [deTy]
    exact (Parses.ret ()).inn.congr fun v u r => by rw [TypeDenotesIn, TypeDenotes]; simp
  | .bool => by
    rw [deTy]
    exact Parses.bool.inn.congr fun v u r => by
      rw [TypeDenotesIn, TypeDenotes]; cases v <;> simp
  | .u8 => by rw [deTy]; exact Parses.u8.inn.congr fun v u r => by rw [TypeDenotesIn, TypeDenotes]
  | .u16 => by rw [deTy]; exact Parses.u16.inn.congr fun v u r => by rw [TypeDenotesIn, TypeDenotes]
  | .u32 => by rw [deTy]; exact Parses.u32.inn.congr fun v u r => by rw [TypeDenotesIn, TypeDenotes]
  | .u64 => by rw [deTy]; exact Parses.u64.inn.congr fun v u r => by rw [TypeDenotesIn, TypeDenotes]
  | .i8 => by rw [deTy]; exact Parses.i8.inn.congr fun v u r => by rw [TypeDenotesIn, TypeDenotes]
  | .i16 => by rw [deTy]; exact Parses.i16.inn.congr fun v u r => by rw [TypeDenotesIn, TypeDenotes]
  | .i32 => by rw [deTy]; exact Parses.i32.inn.congr fun v u r => by rw [TypeDenotesIn, TypeDenotes]
  | .i64 => by rw [deTy]; exact Parses.i64.inn.congr fun v u r => by rw [TypeDenotesIn, TypeDenotes]
  | .f32 => by rw [deTy]; exact Parses.f32.inn.congr fun v u r => by rw [TypeDenotesIn, TypeDenotes]
  | .f64 => by rw [deTy]; exact Parses.f64.inn.congr fun v u r => by rw [TypeDenotesIn, TypeDenotes]
  | .bigUint => by
    rw [deTy]
    refine (ParsesIn.vecU8.wrap BigUint.mk).congr fun v u r => ?_
    rw [TypeDenotesIn]
    constructor
    · intro h; exact ⟨v.bytes, rfl, h⟩
    · rintro ⟨y, rfl, h⟩; exact h
  | .numBigUint => by
    rw [deTy]
    refine (ParsesIn.vecU8.wrap Num.fromBytesLe).congr fun v u r => ?_
    rw [TypeDenotesIn]
    simp only [Num.fromBytesLe_eq, eq_comm]
  | .bigInt => by
    rw [deTy]
    refine (ParsesIn.vecU8.wrap BigInt.mk).congr fun v u r => ?_
    rw [TypeDenotesIn]
    constructor
    · intro h; exact ⟨v.bytes, rfl, h⟩
    · rintro ⟨y, rfl, h⟩; exact h
  | .numBigInt => by
    rw [deTy]
    refine (ParsesIn.vecU8.wrap Num.fromSignedBytesLe).congr fun v u r => ?_
    rw [TypeDenotesIn]
    simp only [Num.fromSignedBytesLe_eq, eq_comm]
  | .bigDecimal => by
    rw [deTy]; exact ParsesIn.bigDecimal.congr fun v u r => by rw [TypeDenotesIn]
  | .numBigDecimal => by
    rw [deTy]; exact ParsesIn.numDecimal.congr fun v u r => by rw [TypeDenotesIn]
  | .str => by
    rw [deTy]
    exact (Parses.never fun fin bs v rest h => by cases h).inn.congr fun v u r => by
      rw [TypeDenotesIn, TypeDenotes]
  | .string => by rw [deTy]; exact ParsesIn.string.congr fun v u r => by rw [TypeDenotesIn]
  | .bytes => by
    rw [deTy]
    exact (Parses.never fun fin bs v rest h => by cases h).inn.congr fun v u r => by
      rw [TypeDenotesIn, TypeDenotes]
  | .byteBuf => by
    rw [deTy]; exact (ParsesIn.byteBuf hm).congr fun v u r => by rw [TypeDenotesIn]
  | .vec T => by
    rw [deTy]
    refine (ParsesIn.countedIn fun n => (parsesIn_ty hm mode env T).times n).congr fun v u r => ?_
    rw [TypeDenotesIn]
    constructor
    · rintro ⟨l, w, rfl, h1, h2⟩; exact ⟨v.length, l, w, rfl, h1, rfl, h2⟩
    · rintro ⟨n, l, w, rfl, h1, rfl, h2⟩; exact ⟨l, w, rfl, h1, h2⟩
  | .date => by
    rw [deTy]; exact (Parses.date mode).inn.congr fun v u r => by rw [TypeDenotesIn, TypeDenotes]
  | .timeDate => by
    rw [deTy]; exact (parses_timeDate mode).inn.congr fun v u r => by rw [TypeDenotesIn, TypeDenotes]
  | .dateTime => by
    rw [deTy]; exact parses_dateTime.inn.congr fun v u r => by rw [TypeDenotesIn, TypeDenotes]
  | .offsetDateTime => by
    rw [deTy]; exact parses_offsetDateTime.inn.congr fun v u r => by rw [TypeDenotesIn, TypeDenotes]
  | .btreeMap T => by
    rw [deTy]
    refine (ParsesIn.countedIn fun n =>
      ((parsesIn_ty hm mode env T).entries n).wrap collectBTree).congr fun v u r => ?_
    rw [TypeDenotesIn]
    constructor
    · rintro ⟨es, l, w, h1, rfl, h2, h3⟩
      exact ⟨es.length, l, w, rfl, h2, es, (collected_eq _ _).mp h1, rfl, h3⟩
    · rintro ⟨n, l, w, rfl, h2, es, h1, rfl, h3⟩
      exact ⟨es, l, w, (collected_eq _ _).mpr h1, rfl, h2, h3⟩
  | .hashMap T => by
    rw [deTy]
    refine (ParsesIn.countedIn fun n => ((parsesIn_ty hm mode env T).entries n).wrap
      fun es => env.order (collectHash es)).congr fun v u r => ?_
    rw [TypeDenotesIn]
    constructor
    · rintro ⟨es, m, l, w, rfl, h1, rfl, h2, h3⟩
      exact ⟨es.length, l, w, rfl, h2, es, by rw [(gathered_iff _ _).mp h1], rfl, h3⟩
    · rintro ⟨n, l, w, rfl, h2, es, rfl, rfl, h3⟩
      exact ⟨es, collectHash es, l, w, rfl, (gathered_iff _ _).mpr rfl, rfl, h2, h3⟩
  | .tuple Ts => by
    rw [deTy]; exact (parsesIn_tuple hm mode env Ts).congr fun v u r => by rw [TypeDenotesIn]
  | .struct _ (.named fs) => by
    rw [deTy]; exact (parsesIn_fields hm mode env fs).congr fun v u r => by rw [TypeDenotesIn]
  | .struct _ (.unnamed []) => by
    rw [deTy]; exact (Parses.ret ()).inn.congr fun v u r => by rw [TypeDenotesIn]; simp
  | .struct _ (.unnamed [.mk _ _ T]) => by
    rw [deTy]
    refine ((parsesIn_ty hm mode env T).wrap fun v => (v, ())).congr fun v u r => ?_
    rw [TypeDenotesIn]
    constructor
    · intro h; exact ⟨v.1, rfl, h⟩
    · rintro ⟨w, rfl, h⟩; exact h
  | .struct _ (.unnamed (f :: g :: fs)) => by
    rw [deTy]
    exact (parsesIn_fields hm mode env (f :: g :: fs)).congr fun v u r => by rw [TypeDenotesIn]
  | .struct _ .unit => by
    rw [deTy]; exact (Parses.ret ()).inn.congr fun v u r => by rw [TypeDenotesIn]; simp
  | .enum _ vs => by
    rw [deTy]
    refine (Parses.u16.inn.bind fun i => parsesIn_variant hm mode env i.toNat vs).congr
      fun v u r => ?_
    rw [TypeDenotesIn]
  | .union _ => by
    rw [deTy]
    exact (Parses.never fun fin bs v rest h => by cases h).inn.congr fun v u r => by
      rw [TypeDenotesIn]
  | .foreign => by
    rw [deTy]
    exact (Parses.never fun fin bs v rest h => by cases h).inn.congr fun v u r => by
      rw [TypeDenotesIn]
theorem parsesIn_tuple (hm : 4096 ≤ t.memLimit) (mode : BuildMode) (env : Env) :
    ∀ Ts : List RTy, ParsesIn t (deTuple t mode env Ts) (TupleDenotesIn t.ptr.bits mode env Ts)
  | [] => by rw [deTuple]; exact (Parses.ret ()).inn.congr fun v u r => by rw [TupleDenotesIn]; simp
  | T :: Ts => by
    rw [deTuple]
    refine ((parsesIn_ty hm mode env T).bind fun v =>
      (parsesIn_tuple hm mode env Ts).wrap fun vs => (v, vs)).congr fun v u r => ?_
    rw [TupleDenotesIn]
    constructor
    · rintro ⟨x, y, rfl, h1, h2⟩; exact ⟨v.1, x, y, rfl, h1, v.2, rfl, h2⟩
    · rintro ⟨a, x, y, rfl, h1, b, rfl, h2⟩; exact ⟨x, y, rfl, h1, h2⟩
theorem parsesIn_fields (hm : 4096 ≤ t.memLimit) (mode : BuildMode) (env : Env) :
    ∀ fs : List RField, ParsesIn t (deFields t mode env fs) (FieldsDenoteIn t.ptr.bits mode env fs)
  | [] => by rw [deFields]; exact (Parses.ret ()).inn.congr fun v u r => by rw [FieldsDenoteIn]; simp
  | .mk attrs _ T :: fs => by
    rw [deFields]
    by_cases hs : SkippedDe attrs
    · rw [if_pos ((deSkips_iff attrs).mpr hs)]
      cases hd : env.dflt attrs T with
      | none =>
        refine (Parses.never fun fin bs v rest h => by cases h).inn.congr fun v u r => ?_
        rw [FieldsDenoteIn, hd]
        simp [hs]
      | some d =>
        refine ((parsesIn_fields hm mode env fs).wrap fun vs => (d, vs)).congr fun v u r => ?_
        rw [FieldsDenoteIn, hd]
        constructor
        · rintro ⟨x, y, rfl, ⟨-, h1, rfl⟩ | ⟨h1, -⟩, h2⟩
          · exact ⟨v.2, by rw [Option.some.inj h1], h2⟩
          · exact (h1 hs).elim
        · rintro ⟨b, rfl, h2⟩; exact ⟨[], u, rfl, .inl ⟨hs, rfl, rfl⟩, h2⟩
    · rw [if_neg fun h => hs ((deSkips_iff attrs).mp h)]
      refine ((parsesIn_ty hm mode env T).bind fun v =>
        (parsesIn_fields hm mode env fs).wrap fun vs => (v, vs)).congr fun v u r => ?_
      rw [FieldsDenoteIn]
      constructor
      · rintro ⟨x, y, rfl, ⟨h1, -⟩ | ⟨-, h1⟩, h2⟩
        · exact (hs h1).elim
        · exact ⟨v.1, x, y, rfl, h1, v.2, rfl, h2⟩
      · rintro ⟨a, x, y, rfl, h1, b, rfl, h2⟩; exact ⟨x, y, rfl, .inr ⟨hs, h1⟩, h2⟩
theorem parsesIn_variant (hm : 4096 ≤ t.memLimit) (mode : BuildMode) (env : Env) {idx : Nat} :
    ∀ (n : Nat) (vs : List RVariant),
      ParsesIn t (deVariant t mode env idx n vs) (VariantDenotesIn t.ptr.bits mode env n vs)
  | _, [] => by
    rw [deVariant]
    exact (Parses.never fun fin bs v rest h => by cases h).inn.congr fun v u r => by cases v
  | n, .mk attrs _ fields :: vs => by
    by_cases hs : SkippedDe attrs
    · rw [deVariant_skip t mode env n hs]
      refine ((parsesIn_variant hm mode env n vs).wrap Sum.inr).congr fun v u r => ?_
      cases v with
      | inl v => simp [VariantDenotesIn, hs]
      | inr v => simp [VariantDenotesIn, hs]
    · cases n with
      | zero =>
        rw [deVariant_zero t mode env hs]
        refine ((parsesIn_payload hm mode env fields).wrap Sum.inl).congr fun v u r => ?_
        cases v with
        | inl v => simp [VariantDenotesIn, hs]
        | inr v => simp [VariantDenotesIn, hs]
      | succ n =>
        rw [deVariant_succ t mode env n hs]
        refine ((parsesIn_variant hm mode env n vs).wrap Sum.inr).congr fun v u r => ?_
        cases v with
        | inl v => simp [VariantDenotesIn]
        | inr v => simp [VariantDenotesIn, hs]
theorem parsesIn_payload (hm : 4096 ≤ t.memLimit) (mode : BuildMode) (env : Env) :
    ∀ fields : RFields,
      ParsesIn t (dePayload t mode env fields) (PayloadDenotesIn t.ptr.bits mode env fields)
  | .named fs => by
    rw [dePayload]; exact (parsesIn_fields hm mode env fs).congr fun v u r => by rw [PayloadDenotesIn]
  | .unnamed fs => by
    rw [dePayload]; exact (parsesIn_fields hm mode env fs).congr fun v u r => by rw [PayloadDenotesIn]
  | .unit => by
    rw [dePayload]; exact (Parses.ret ()).inn.congr fun v u r => by rw [PayloadDenotesIn]; simp
end

end Derive

/-! ## Lengths that fit -/

namespace Spec

open Derive (Carrier TupleCarrier FieldCarrier FieldsCarrier VariantsCarrier Env)

section
variable {bits : Nat} {ok : UInt8 → Prop}

theorem entryIn_iff (H : ∀ m l, Number 64 m l → (∀ b ∈ l, ok b) → m < 2 ^ bits) {α : Type}
    {R : α → List UInt8 → List UInt8 → Prop} {S : α → List UInt8 → Prop}
    (h : ∀ a u r, (∀ b ∈ u, ok b) → (R a u r ↔ S a u)) (e : String × α) (u r : List UInt8)
    (hu : ∀ b ∈ u, ok b) : EntryIn bits R e u r ↔
      ∃ y z, u = y ++ z ∧ Prefixed (utf8 e.1) y ∧ S e.2 z := by
  constructor
  · rintro ⟨y, z, rfl, h1, h2⟩
    exact ⟨y, z, rfl, (textIn_iff H _ y _ fun b hb => hu b (by simp [hb])).mp h1,
      (h e.2 z r fun b hb => hu b (by simp [hb])).mp h2⟩
  · rintro ⟨y, z, rfl, h1, h2⟩
    exact ⟨y, z, rfl, (textIn_iff H _ y _ fun b hb => hu b (by simp [hb])).mpr h1,
      (h e.2 z r fun b hb => hu b (by simp [hb])).mpr h2⟩

variable (H : ∀ m l, Number 64 m l → (∀ b ∈ l, ok b) → m < 2 ^ bits)
include H

theorem countedIn_iff (body u : List UInt8) (hu : ∀ b ∈ u, ok b) :
    CountedIn bits body u ↔ Prefixed body u := by
  constructor
  · rintro ⟨l, h1, rfl⟩
    exact ⟨l, (countIn_iff H _ l fun b hb => hu b (by simp [hb])).mp h1, rfl⟩
  · rintro ⟨l, h1, rfl⟩
    exact ⟨l, (countIn_iff H _ l fun b hb => hu b (by simp [hb])).mpr h1, rfl⟩

theorem decimalIn_iff (v : BigDecimal) (u : List UInt8) (hu : ∀ b ∈ u, ok b) :
    DecimalIn bits v u ↔ ((v.signedBytes = [] ∧ v.scale = 0 ∧ Prefixed [] u) ∨
       (v.signedBytes ≠ [] ∧ ∃ l x, u = l ++ x ∧ Prefixed v.signedBytes l ∧
          Number 64 (zigzag v.scale.toInt) x)) := by
  rw [DecimalIn, countedIn_iff H _ u hu]
  refine or_congr Iff.rfl (and_congr Iff.rfl ⟨?_, ?_⟩)
  · rintro ⟨l, x, rfl, h1, h2⟩
    exact ⟨l, x, rfl, (countedIn_iff H _ l fun b hb => hu b (by simp [hb])).mp h1, h2⟩
  · rintro ⟨l, x, rfl, h1, h2⟩
    exact ⟨l, x, rfl, (countedIn_iff H _ l fun b hb => hu b (by simp [hb])).mpr h1, h2⟩

set_option linter.unusedSectionVars false in
mutual
theorem typeDenotesIn_iff (mode : BuildMode) (env : Env) : ∀ (T : RTy) (v : Carrier T)
    (u r : List UInt8), (∀ b ∈ u, ok b) →
      (TypeDenotesIn bits mode env T v u r ↔ TypeDenotes mode env T v u)
  | .option T, none, u, r, hu => by rw [TypeDenotesIn, TypeDenotes]
  | .option T, some v, u, r, hu => by
    rw [TypeDenotesIn, TypeDenotes]
    constructor
    · rintro ⟨x, rfl, h⟩
      exact ⟨x, rfl, (typeDenotesIn_iff mode env T v x r fun b hb => hu b (by simp [hb])).mp h⟩
    · rintro ⟨x, rfl, h⟩
      exact ⟨x, rfl, (typeDenotesIn_iff mode env T v x r fun b hb => hu b (by simp [hb])).mpr h⟩
  | .unit, v, u, r, _ => by rw [TypeDenotesIn]
  | .bool, v, u, r, _ => by rw [TypeDenotesIn]
  | .u8, v, u, r, _ => by rw [TypeDenotesIn]
  | .u16, v, u, r, _ => by rw [TypeDenotesIn]
  | .u32, v, u, r, _ => by rw [TypeDenotesIn]
  | .u64, v, u, r, _ => by rw [TypeDenotesIn]
  | .i8, v, u, r, _ => by rw [TypeDenotesIn]
  | .i16, v, u, r, _ => by rw [TypeDenotesIn]
  | .i32, v, u, r, _ => by rw [TypeDenotesIn]
  | .i64, v, u, r, _ => by rw [TypeDenotesIn]
  | .f32, v, u, r, _ => by rw [TypeDenotesIn]
  | .f64, v, u, r, _ => by rw [TypeDenotesIn]
  | .str, v, u, r, _ => by rw [TypeDenotesIn]
  | .bytes, v, u, r, _ => by rw [TypeDenotesIn]
  | .date, v, u, r, _ => by rw [TypeDenotesIn]
  | .timeDate, v, u, r, _ => by rw [TypeDenotesIn]
  | .dateTime, v, u, r, _ => by rw [TypeDenotesIn]
  | .offsetDateTime, v, u, r, _ => by rw [TypeDenotesIn]
  | .union _, v, u, r, _ => by rw [TypeDenotesIn, TypeDenotes]
  | .foreign, v, u, r, _ => by rw [TypeDenotesIn, TypeDenotes]
  | .bigUint, v, u, r, hu => by rw [TypeDenotesIn, TypeDenotes, countedIn_iff H _ u hu]
  | .numBigUint, v, u, r, hu => by
    rw [TypeDenotesIn, TypeDenotes]; simp only [countedIn_iff H _ u hu]
  | .bigInt, v, u, r, hu => by rw [TypeDenotesIn, TypeDenotes, countedIn_iff H _ u hu]
  | .numBigInt, v, u, r, hu => by
    rw [TypeDenotesIn, TypeDenotes]; simp only [countedIn_iff H _ u hu]
  | .bigDecimal, v, u, r, hu => by rw [TypeDenotesIn, TypeDenotes, decimalIn_iff H v u hu]
  | .numBigDecimal, v, u, r, hu => by
    rw [TypeDenotesIn, TypeDenotes]
    constructor
    · rintro ⟨body, l, x, rfl, h1, h2, h3⟩
      exact ⟨body, l, x, rfl, h1, (countedIn_iff H _ l fun b hb => hu b (by simp [hb])).mp h2, h3⟩
    · rintro ⟨body, l, x, rfl, h1, h2, h3⟩
      exact ⟨body, l, x, rfl, h1, (countedIn_iff H _ l fun b hb => hu b (by simp [hb])).mpr h2, h3⟩
  | .string, v, u, r, hu => by rw [TypeDenotesIn, TypeDenotes, textIn_iff H _ u r hu]
  | .byteBuf, v, u, r, hu => by rw [TypeDenotesIn, TypeDenotes, bytesIn_iff H _ u hu]
  | .vec T, v, u, r, hu => by
    rw [TypeDenotesIn, TypeDenotes]
    constructor
    · rintro ⟨l, x, rfl, h1, h2⟩
      exact ⟨l, x, rfl, (countIn_iff H _ l fun b hb => hu b (by simp [hb])).mp h1,
        (joinedIn_iff (typeDenotesIn_iff mode env T) v x r fun b hb => hu b (by simp [hb])).mp h2⟩
    · rintro ⟨l, x, rfl, h1, h2⟩
      exact ⟨l, x, rfl, (countIn_iff H _ l fun b hb => hu b (by simp [hb])).mpr h1,
        (joinedIn_iff (typeDenotesIn_iff mode env T) v x r fun b hb => hu b (by simp [hb])).mpr h2⟩
  | .btreeMap T, v, u, r, hu => by
    rw [TypeDenotesIn, TypeDenotes]
    constructor
    · rintro ⟨es, l, x, h0, rfl, h1, h2⟩
      exact ⟨es, l, x, h0, rfl, (countIn_iff H _ l fun b hb => hu b (by simp [hb])).mp h1,
        (joinedIn_iff (entryIn_iff H (typeDenotesIn_iff mode env T)) es x r
          fun b hb => hu b (by simp [hb])).mp h2⟩
    · rintro ⟨es, l, x, h0, rfl, h1, h2⟩
      exact ⟨es, l, x, h0, rfl, (countIn_iff H _ l fun b hb => hu b (by simp [hb])).mpr h1,
        (joinedIn_iff (entryIn_iff H (typeDenotesIn_iff mode env T)) es x r
          fun b hb => hu b (by simp [hb])).mpr h2⟩
  | .hashMap T, v, u, r, hu => by
    rw [TypeDenotesIn, TypeDenotes]
    constructor
    · rintro ⟨es, m, l, x, h0, h0', rfl, h1, h2⟩
      exact ⟨es, m, l, x, h0, h0', rfl, (countIn_iff H _ l fun b hb => hu b (by simp [hb])).mp h1,
        (joinedIn_iff (entryIn_iff H (typeDenotesIn_iff mode env T)) es x r
          fun b hb => hu b (by simp [hb])).mp h2⟩
    · rintro ⟨es, m, l, x, h0, h0', rfl, h1, h2⟩
      exact ⟨es, m, l, x, h0, h0', rfl, (countIn_iff H _ l fun b hb => hu b (by simp [hb])).mpr h1,
        (joinedIn_iff (entryIn_iff H (typeDenotesIn_iff mode env T)) es x r
          fun b hb => hu b (by simp [hb])).mpr h2⟩
  | .tuple Ts, v, u, r, hu => by
    rw [TypeDenotesIn, TypeDenotes]; exact tupleDenotesIn_iff mode env Ts v u r hu
  | .struct _ (.named fs), v, u, r, hu => by
    rw [TypeDenotesIn, TypeDenotes]; exact fieldsDenoteIn_iff mode env fs v u r hu
  | .struct _ (.unnamed []), v, u, r, hu => by rw [TypeDenotesIn, TypeDenotes]
  | .struct _ (.unnamed [.mk _ _ T]), v, u, r, hu => by
    rw [TypeDenotesIn, TypeDenotes]; exact typeDenotesIn_iff mode env T v.1 u r hu
  | .struct _ (.unnamed (f :: g :: fs)), v, u, r, hu => by
    rw [TypeDenotesIn, TypeDenotes]; exact fieldsDenoteIn_iff mode env (f :: g :: fs) v u r hu
  | .struct _ .unit, v, u, r, hu => by rw [TypeDenotesIn, TypeDenotes]
  | .enum _ vs, v, u, r, hu => by
    rw [TypeDenotesIn, TypeDenotes]
    constructor
    · rintro ⟨i, l, x, rfl, h1, h2⟩
      exact ⟨i, l, x, rfl, h1,
        (variantDenotesIn_iff mode env i.toNat vs v x r fun b hb => hu b (by simp [hb])).mp h2⟩
    · rintro ⟨i, l, x, rfl, h1, h2⟩
      exact ⟨i, l, x, rfl, h1,
        (variantDenotesIn_iff mode env i.toNat vs v x r fun b hb => hu b (by simp [hb])).mpr h2⟩
theorem tupleDenotesIn_iff (mode : BuildMode) (env : Env) : ∀ (Ts : List RTy) (v : TupleCarrier Ts)
    (u r : List UInt8), (∀ b ∈ u, ok b) →
      (TupleDenotesIn bits mode env Ts v u r ↔ TupleDenotes mode env Ts v u)
  | [], v, u, r, hu => by rw [TupleDenotesIn, TupleDenotes]
  | T :: Ts, v, u, r, hu => by
    rw [TupleDenotesIn, TupleDenotes]
    constructor
    · rintro ⟨x, y, rfl, h1, h2⟩
      exact ⟨x, y, rfl, (typeDenotesIn_iff mode env T v.1 x _ fun b hb => hu b (by simp [hb])).mp h1,
        (tupleDenotesIn_iff mode env Ts v.2 y r fun b hb => hu b (by simp [hb])).mp h2⟩
    · rintro ⟨x, y, rfl, h1, h2⟩
      exact ⟨x, y, rfl, (typeDenotesIn_iff mode env T v.1 x _ fun b hb => hu b (by simp [hb])).mpr h1,
        (tupleDenotesIn_iff mode env Ts v.2 y r fun b hb => hu b (by simp [hb])).mpr h2⟩
theorem fieldsDenoteIn_iff (mode : BuildMode) (env : Env) : ∀ (fs : List RField)
    (v : FieldCarrier fs) (u r : List UInt8), (∀ b ∈ u, ok b) →
      (FieldsDenoteIn bits mode env fs v u r ↔ FieldsDenote mode env fs v u)
  | [], v, u, r, hu => by rw [FieldsDenoteIn, FieldsDenote]
  | .mk attrs _ T :: fs, v, u, r, hu => by
    rw [FieldsDenoteIn, FieldsDenote]
    constructor
    · rintro ⟨x, y, rfl, h1, h2⟩
      refine ⟨x, y, rfl, ?_, (fieldsDenoteIn_iff mode env fs v.2 y r
        fun b hb => hu b (by simp [hb])).mp h2⟩
      exact h1.imp id fun h => ⟨h.1, (typeDenotesIn_iff mode env T v.1 x _
        fun b hb => hu b (by simp [hb])).mp h.2⟩
    · rintro ⟨x, y, rfl, h1, h2⟩
      refine ⟨x, y, rfl, ?_, (fieldsDenoteIn_iff mode env fs v.2 y r
        fun b hb => hu b (by simp [hb])).mpr h2⟩
      exact h1.imp id fun h => ⟨h.1, (typeDenotesIn_iff mode env T v.1 x _
        fun b hb => hu b (by simp [hb])).mpr h.2⟩
theorem variantDenotesIn_iff (mode : BuildMode) (env : Env) : ∀ (n : Nat) (vs : List RVariant)
    (v : VariantsCarrier vs) (u r : List UInt8), (∀ b ∈ u, ok b) →
      (VariantDenotesIn bits mode env n vs v u r ↔ VariantDenotes mode env n vs v u)
  | _, [], v, u, r, hu => by rw [VariantDenotesIn, VariantDenotes]
  | n, .mk attrs _ fields :: _, .inl v, u, r, hu => by
    rw [VariantDenotesIn, VariantDenotes, payloadDenotesIn_iff mode env fields v u r hu]
  | n, .mk attrs _ _ :: vs, .inr v, u, r, hu => by
    rw [VariantDenotesIn, VariantDenotes]
    simp only [fun k => variantDenotesIn_iff mode env k vs v u r hu]
theorem payloadDenotesIn_iff (mode : BuildMode) (env : Env) : ∀ (fields : RFields)
    (v : FieldsCarrier fields) (u r : List UInt8), (∀ b ∈ u, ok b) →
      (PayloadDenotesIn bits mode env fields v u r ↔ PayloadDenotes mode env fields v u)
  | .named fs, v, u, r, hu => by
    rw [PayloadDenotesIn, PayloadDenotes]; exact fieldsDenoteIn_iff mode env fs v u r hu
  | .unnamed fs, v, u, r, hu => by
    rw [PayloadDenotesIn, PayloadDenotes]; exact fieldsDenoteIn_iff mode env fs v u r hu
  | .unit, v, u, r, hu => by rw [PayloadDenotesIn, PayloadDenotes]
end

set_option linter.unusedSectionVars false in
mutual
theorem bodyDenotesIn_iff (mode : BuildMode) (room : Nat → Prop) : ∀ (h : Header) (b : Body)
    (u r : List UInt8), (∀ b ∈ u, ok b) →
      (BodyDenotesIn bits mode room h b u r ↔ BodyDenotes mode room h b u)
  | .unit, v, u, r, _ => by rw [BodyDenotesIn] <;> simp
  | .boolean, v, u, r, _ => by rw [BodyDenotesIn] <;> simp
  | .uint8, v, u, r, _ => by rw [BodyDenotesIn] <;> simp
  | .uint16, v, u, r, _ => by rw [BodyDenotesIn] <;> simp
  | .uint32, v, u, r, _ => by rw [BodyDenotesIn] <;> simp
  | .uint64, v, u, r, _ => by rw [BodyDenotesIn] <;> simp
  | .int8, v, u, r, _ => by rw [BodyDenotesIn] <;> simp
  | .int16, v, u, r, _ => by rw [BodyDenotesIn] <;> simp
  | .int32, v, u, r, _ => by rw [BodyDenotesIn] <;> simp
  | .int64, v, u, r, _ => by rw [BodyDenotesIn] <;> simp
  | .float32, v, u, r, _ => by rw [BodyDenotesIn] <;> simp
  | .float64, v, u, r, _ => by rw [BodyDenotesIn] <;> simp
  | .date, v, u, r, _ => by rw [BodyDenotesIn] <;> simp
  | .dateTime, v, u, r, _ => by rw [BodyDenotesIn] <;> simp
  | .optional h, v, u, r, hu => by
    rw [BodyDenotesIn, BodyDenotes]
    refine or_congr Iff.rfl ⟨?_, ?_⟩
    · rintro ⟨c, x, rfl, rfl, h1⟩
      exact ⟨c, x, rfl, rfl, (bodyDenotesIn_iff mode room h c x r fun b hb => hu b (by simp [hb])).mp h1⟩
    · rintro ⟨c, x, rfl, rfl, h1⟩
      exact ⟨c, x, rfl, rfl, (bodyDenotesIn_iff mode room h c x r fun b hb => hu b (by simp [hb])).mpr h1⟩
  | .bigUInt, v, u, r, hu => by
    rw [BodyDenotesIn, BodyDenotes]; simp only [countedIn_iff H _ u hu]
  | .bigInt, v, u, r, hu => by
    rw [BodyDenotesIn, BodyDenotes]; simp only [countedIn_iff H _ u hu]
  | .bigDecimal, v, u, r, hu => by
    rw [BodyDenotesIn, BodyDenotes]; simp only [decimalIn_iff H _ u hu]
  | .string, v, u, r, hu => by
    rw [BodyDenotesIn, BodyDenotes]; simp only [textIn_iff H _ u r hu]
  | .binary, v, u, r, hu => by
    rw [BodyDenotesIn, BodyDenotes]; simp only [bytesIn_iff H _ u hu]
  | .array h, v, u, r, hu => by
    rw [BodyDenotesIn, BodyDenotes]
    constructor
    · rintro ⟨cs, l, x, rfl, rfl, h1, h2, h3⟩
      rw [Nat.mod_eq_of_lt (H _ l h1 fun b hb => hu b (by simp [hb]))] at h3
      exact ⟨cs, l, x, rfl, rfl, h1, (joinedIn_iff (bodyDenotesIn_iff mode room h) cs x r
        fun b hb => hu b (by simp [hb])).mp h2, h3⟩
    · rintro ⟨cs, l, x, rfl, rfl, h1, h2, h3⟩
      refine ⟨cs, l, x, rfl, rfl, h1, (joinedIn_iff (bodyDenotesIn_iff mode room h) cs x r
        fun b hb => hu b (by simp [hb])).mpr h2, ?_⟩
      rw [Nat.mod_eq_of_lt (H _ l h1 fun b hb => hu b (by simp [hb]))]
      exact h3
  | .tuple hs, v, u, r, hu => by
    rw [BodyDenotesIn, BodyDenotes]
    simp only [fun c => bodiesDenoteIn_iff mode room hs c u r hu]
  | .map h, v, u, r, hu => by
    rw [BodyDenotesIn, BodyDenotes]
    constructor
    · rintro ⟨es, m, l, x, h0, h0', rfl, h1, h2⟩
      exact ⟨es, m, l, x, h0, h0', rfl, h1,
        (joinedIn_iff (entryIn_iff H (bodyDenotesIn_iff mode room h)) es x r
          fun b hb => hu b (by simp [hb])).mp h2⟩
    · rintro ⟨es, m, l, x, h0, h0', rfl, h1, h2⟩
      exact ⟨es, m, l, x, h0, h0', rfl, h1,
        (joinedIn_iff (entryIn_iff H (bodyDenotesIn_iff mode room h)) es x r
          fun b hb => hu b (by simp [hb])).mpr h2⟩
  | .enum hs, v, u, r, hu => by
    rw [BodyDenotesIn, BodyDenotes]
    constructor
    · rintro ⟨i, c, l, x, rfl, rfl, h1, h2⟩
      exact ⟨i, c, l, x, rfl, rfl, h1,
        (nthDenotesIn_iff mode room hs i.toNat c x r fun b hb => hu b (by simp [hb])).mp h2⟩
    · rintro ⟨i, c, l, x, rfl, rfl, h1, h2⟩
      exact ⟨i, c, l, x, rfl, rfl, h1,
        (nthDenotesIn_iff mode room hs i.toNat c x r fun b hb => hu b (by simp [hb])).mpr h2⟩
theorem bodiesDenoteIn_iff (mode : BuildMode) (room : Nat → Prop) : ∀ (hs : List Header)
    (cs : List Body) (u r : List UInt8), (∀ b ∈ u, ok b) →
      (BodiesDenoteIn bits mode room hs cs u r ↔ BodiesDenote mode room hs cs u)
  | [], _, _, _, _ => by rw [BodiesDenoteIn, BodiesDenote]
  | h :: hs, cs, u, r, hu => by
    rw [BodiesDenoteIn, BodiesDenote]
    constructor
    · rintro ⟨d, ds, x, y, rfl, rfl, h1, h2⟩
      exact ⟨d, ds, x, y, rfl, rfl,
        (bodyDenotesIn_iff mode room h d x _ fun b hb => hu b (by simp [hb])).mp h1,
        (bodiesDenoteIn_iff mode room hs ds y r fun b hb => hu b (by simp [hb])).mp h2⟩
    · rintro ⟨d, ds, x, y, rfl, rfl, h1, h2⟩
      exact ⟨d, ds, x, y, rfl, rfl,
        (bodyDenotesIn_iff mode room h d x _ fun b hb => hu b (by simp [hb])).mpr h1,
        (bodiesDenoteIn_iff mode room hs ds y r fun b hb => hu b (by simp [hb])).mpr h2⟩
theorem nthDenotesIn_iff (mode : BuildMode) (room : Nat → Prop) : ∀ (hs : List Header) (n : Nat)
    (b : Body) (u r : List UInt8), (∀ b ∈ u, ok b) →
      (NthDenotesIn bits mode room hs n b u r ↔ NthDenotes mode room hs n b u)
  | [], _, _, _, _, _ => by rw [NthDenotesIn, NthDenotes]
  | h :: _, 0, b, u, r, hu => by
    rw [NthDenotesIn, NthDenotes]; exact bodyDenotesIn_iff mode room h b u r hu
  | _ :: hs, n + 1, b, u, r, hu => by
    rw [NthDenotesIn, NthDenotes]; exact nthDenotesIn_iff mode room hs n b u r hu
end

end

end Spec
end Dlhn
