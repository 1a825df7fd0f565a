import Verif.Proof.DeriveBody
import Verif.Spec.DeriveDe
/-! # Reading values of Rust types back -/
namespace Dlhn

open Spec hiding variantFields

namespace Derive

theorem deSkips_iff (attrs : List Attr) : deSkips attrs = true ↔ SkippedDe attrs := by
  simp only [deSkips, SkippedDe, HasSerdeItem, List.any_eq_true, Bool.and_eq_true, beq_iff_eq,
    Bool.or_eq_true]
  constructor
  · rintro ⟨a, ha, hp, i, hi, rfl | rfl⟩
    · exact .inl ⟨a, ha, hp, hi⟩
    · exact .inr ⟨a, ha, hp, hi⟩
  · rintro (⟨a, ha, hp, hi⟩ | ⟨a, ha, hp, hi⟩)
    · exact ⟨a, ha, hp, _, hi, .inl rfl⟩
    · exact ⟨a, ha, hp, _, hi, .inr rfl⟩

/-! ## Maps -/

theorem hashInsert_new {α : Type} (k : String) (v : α) (m : List (String × α))
    (h : k ∉ m.map Prod.fst) : hashInsert k v m = m ++ [(k, v)] := by
  induction m with
  | nil => rfl
  | cons e m ih =>
    obtain ⟨k', v'⟩ := e
    simp only [List.map_cons, List.mem_cons, not_or] at h
    rw [hashInsert, if_neg h.1, ih h.2, List.cons_append]

theorem foldl_hashInsert {α : Type} (es m : List (String × α))
    (h : ((m ++ es).map Prod.fst).Nodup) :
    es.foldl (fun m e => hashInsert e.1 e.2 m) m = m ++ es := by
  induction es generalizing m with
  | nil => simp
  | cons e es ih =>
    obtain ⟨k, v⟩ := e
    have hk : k ∉ m.map Prod.fst := by
      rw [List.map_append, List.nodup_append] at h
      exact fun hm => h.2.2 k hm k (by simp) rfl
    rw [List.foldl_cons, hashInsert_new k v m hk, ih _ (by simpa using h)]
    simp

theorem collectHash_nodup {α : Type} (es : List (String × α)) (h : (es.map Prod.fst).Nodup) :
    collectHash es = es := foldl_hashInsert es [] (by simpa using h)

theorem collectBTree_ascending {α : Type} (es : List (String × α)) (h : Ascending es) :
    collectBTree es = es := insertAll_ascending es [] (by simpa using h)

/-! ## Reading back -/

/-- What is asked of one part of a type. -/
def TypeOk (env : Env) (U : RTy) : Prop :=
  ReadablePart U ∧ SymmetricPart U ∧ DefaultedPart env U

/-- What is asked of one part of a value. -/
structure ValueOk (t : Target) (mode : BuildMode) (p : Σ T, Carrier T) : Prop where
  real : RealPart t p
  date : mode = .debug → ∀ d : Date, p = ⟨.date, d⟩ → DateFits d
  instant : ∀ d : Time.OffsetDateTime, p = ⟨.offsetDateTime, d⟩ → UtcInRange d

/-- `p` writes `bs`, from which `q` reads `w`. -/
structure Reads {α : Type} (t : Target) (p : WProg SerErr) (q : Prog DeErr α) (w : α)
    (bs : List UInt8) : Prop where
  bytes : p.exec = (bs, .ok ())
  decodes : ∀ fin rest, Prog.exec t fin q (bs ++ rest) = .ok (w, rest)

theorem Reads.nil {α : Type} {t : Target} {w : α} : Reads t .skip (pure w) w [] :=
  ⟨rfl, fun _ _ => rfl⟩

theorem Reads.map {α β : Type} {t : Target} {p : WProg SerErr} {q : Prog DeErr α} {w : α}
    {bs : List UInt8} (h : Reads t p q w bs) (f : α → β) :
    Reads t p (q >>= fun a => pure (f a)) (f w) bs :=
  ⟨h.bytes, fun fin rest => De.exec_wrap t fin q f w _ _ (h.decodes fin rest)⟩

/-- First one thing, then another. -/
theorem Reads.seq {α β γ : Type} {t : Target} {p ps : WProg SerErr} {q : Prog DeErr α}
    {qs : Prog DeErr β} {a : α} {b : β} {bs bs' : List UInt8} (h : Reads t p q a bs)
    (hs : Reads t ps qs b bs') (f : α → β → γ) :
    Reads t (p.andThen ps) (do let a ← q; let b ← qs; pure (f a b)) (f a b) (bs ++ bs') where
  bytes := by rw [WProg.exec_andThen_ok h.bytes, hs.bytes]
  decodes := fun fin rest => by
    rw [Prog.bind_eq, Prog.exec_bind, List.append_assoc, h.decodes, Prog.next_ok]
    exact De.exec_wrap t fin _ (f a) _ _ _ (hs.decodes fin rest)

theorem reads_seq {t : Target} {α β : Type} {f : α → WProg SerErr} {q : Prog DeErr β}
    {R : α → β → Prop} : (vs : List α) →
    (∀ v ∈ vs, ∃ w bs, R v w ∧ Reads t (f v) q w bs) →
    ∃ ws bs, Pointwise R vs ws ∧ Reads t (serSeq f vs) (De.times vs.length q) ws bs
  | [], _ => ⟨[], [], trivial, .nil⟩
  | v :: vs, h => by
    obtain ⟨w, bs, hr, ha⟩ := h v (by simp)
    obtain ⟨ws, bs', hrs, has⟩ := reads_seq vs fun v hv => h v (by simp [hv])
    exact ⟨w :: ws, bs ++ bs', ⟨hr, hrs⟩, ha.seq has List.cons⟩

theorem reads_map {t : Target} {α β : Type} {f : α → WProg SerErr} {q : Prog DeErr β}
    {R : α → β → Prop} : (es : List (String × α)) →
    (∀ e ∈ es, (utf8 e.1).length < 2 ^ t.ptr.bits) →
    (∀ e ∈ es, ∃ w bs, R e.2 w ∧ Reads t (f e.2) q w bs) →
    ∃ ws bs, Pointwise (fun e w => e.1 = w.1 ∧ R e.2 w.2) es ws ∧
      ws.map Prod.fst = es.map Prod.fst ∧ Reads t (serMap f es) (deEntries t q es.length) ws bs
  | [], _, _ => ⟨[], [], trivial, rfl, .nil⟩
  | (k, v) :: es, hk, h => by
    obtain ⟨w, bs, hr, ha⟩ := h (k, v) (by simp)
    obtain ⟨ws, bs', hrs, hks, has⟩ := reads_map es (fun e he => hk e (by simp [he]))
      fun e he => h e (by simp [he])
    have hk0 : (utf8 k).length < 2 ^ t.ptr.bits := hk (k, v) (by simp)
    have hkr : Reads t (Ser.serStr k) (De.deString t) k (block (utf8 k)) :=
      ⟨Ser.exec_serStr k (De.lt_64_of_lt_bits hk0), fun fin rest => De.deString_block t fin k hk0 rest⟩
    refine ⟨(k, w) :: ws, block (utf8 k) ++ (bs ++ bs'), ⟨⟨rfl, hr⟩, hrs⟩, by simp [hks], ?_, ?_⟩
    · rw [serMap, WProg.exec_andThen_ok hkr.bytes, WProg.exec_andThen_ok ha.bytes, has.bytes]
    · intro fin rest
      rw [List.length_cons, deEntries, Prog.bind_eq, Prog.exec_bind, List.append_assoc,
        List.append_assoc, hkr.decodes, Prog.next_ok, Prog.bind_eq, Prog.exec_bind, ha.decodes,
        Prog.next_ok]
      exact De.exec_wrap t fin _ ((k, w) :: ·) _ _ _ (has.decodes fin rest)

/-- A count and what it counts. -/
theorem Reads.counted {α β : Type} {t : Target} {ps : WProg SerErr} {n : Nat}
    {qs : Nat → Prog DeErr α} {a : α} {bs : List UInt8} (hn : n < 2 ^ t.ptr.bits)
    (hs : Reads t ps (qs n) a bs) (f : α → β) :
    Reads t ((Ser.serHint (some n)).andThen ps)
      (do let c ← De.deU64; let a ← qs (t.asUsize c); pure (f a)) (f a) (varint 64 n ++ bs) where
  bytes := by
    rw [WProg.exec_andThen_ok (Ser.exec_serHint _ (by simpa using De.lt_64_of_lt_bits hn)), hs.bytes]
    rfl
  decodes := fun fin rest => by
    rw [Prog.bind_eq, Prog.exec_bind, List.append_assoc, De.deU64,
      De.exec_u64_varint _ _ _ (De.lt_64_of_lt_bits hn), Prog.next_ok, De.asUsize_ofNat hn]
    exact De.exec_wrap t fin _ f _ _ _ (hs.decodes fin rest)

theorem ascending_keys {α β : Type} {es : List (String × α)} {cs : List (String × β)}
    (h : es.Pairwise fun x y => utf8 x.1 < utf8 y.1) (hk : cs.map Prod.fst = es.map Prod.fst) :
    Ascending cs := by
  have h1 : (es.map Prod.fst).Pairwise fun x y => utf8 x < utf8 y := List.pairwise_map.mpr h
  rw [← hk] at h1
  exact (List.pairwise_map (f := Prod.fst) (R := fun x y => utf8 x < utf8 y)).mp h1

/-! ## Leaves -/

theorem reads_numBigUint (t : Target) (n : Nat) (bs : List UInt8) (h1 : ShortestUnsigned n bs)
    (h2 : bs.length < 2 ^ t.ptr.bits) :
    Reads t (Format.serBigUint n) (Format.deBigUint t) n (block (BigUint.ofNum n).bytes) := by
  have hl : (BigUint.ofNum n).bytes.length < 2 ^ t.ptr.bits :=
    Nat.lt_of_le_of_lt ((BigUint.shortest n).2 bs h1.1) h2
  refine ⟨by rw [Format.serBigUint_eq, BigUint.exec_ser _ (De.lt_64_of_lt_bits hl)], fun fin rest => ?_⟩
  have := De.exec_wrap t fin _ Num.fromBytesLe _ _ _ (De.deVecU8_block t fin _ rest hl)
  rw [Num.fromBytesLe_eq, (BigUint.shortest n).1] at this
  exact this

theorem reads_numBigInt (t : Target) (x : Int) (bs : List UInt8) (h1 : ShortestSigned x bs)
    (h2 : bs.length < 2 ^ t.ptr.bits) :
    Reads t (Format.serBigInt x) (Format.deBigInt t) x (block (BigInt.ofNum x).bytes) := by
  have hl : (BigInt.ofNum x).bytes.length < 2 ^ t.ptr.bits :=
    Nat.lt_of_le_of_lt ((BigInt.shortest x).2 bs h1.1) h2
  refine ⟨by rw [Format.serBigInt_eq, BigInt.exec_ser _ (De.lt_64_of_lt_bits hl)], fun fin rest => ?_⟩
  have := De.exec_wrap t fin _ Num.fromSignedBytesLe _ _ _ (De.deVecU8_block t fin _ rest hl)
  rw [Num.fromSignedBytesLe_eq, (BigInt.shortest x).1] at this
  exact this

theorem reads_bigDecimal (t : Target) (v : BigDecimal) (h : v.signedBytes.length < 2 ^ t.ptr.bits) :
    Reads t v.ser (BigDecimal.de t) (if v.signedBytes = [] then ⟨[], 0⟩ else v) (decimalWire v) := by
  refine ⟨BigDecimal.exec_ser v (De.lt_64_of_lt_bits h), fun fin rest => ?_⟩
  split
  · rename_i h0
    have := BigDecimal.exec_de t fin ⟨[], 0⟩ (Nat.two_pow_pos _) (fun _ => rfl) rest
    rw [decimalWire, if_pos rfl] at this
    rw [decimalWire, if_pos h0]
    exact this
  · exact BigDecimal.exec_de t fin v h (fun h0 => absurd h0 ‹_›) rest

theorem reads_numBigDecimal (t : Target) (mode : BuildMode) (v : Num.Decimal) (bs : List UInt8)
    (h1 : ShortestSigned v.intVal bs) (h2 : bs.length < 2 ^ t.ptr.bits) (hf : ScaleFits v) :
    ∃ w bs, SameNumber v w ∧
      Reads t (Format.serBigDecimal mode v) (Format.deBigDecimal t) w bs := by
  have key : ∀ b, BigDecimal.ofNum mode v = .ok b → b.signedBytes.length < 2 ^ t.ptr.bits :=
    fun b hb => Nat.lt_of_le_of_lt (BigDecimal.length_ofNum mode v hf b hb bs h1) h2
  rcases BigDecimal.ofNum_spec mode v hf with ⟨hz, hb⟩ | ⟨hz, n, hn, hm, hs, -, hb, hto⟩
  · refine ⟨⟨0, 0⟩, decimalWire ⟨[], 0⟩, Num.same_of_zero hz rfl, ?_, fun fin rest => ?_⟩
    · rw [Format.serBigDecimal_eq mode v hf _ hb, BigDecimal.exec_ser _ (by simp)]
    · rw [decimalWire, if_pos rfl, ← block_nil, Format.deBigDecimal, Prog.bind_eq, Prog.exec_bind,
        De.deVecU8_block _ _ _ _ (by simpa using Nat.two_pow_pos _), Prog.next_ok]
      rfl
  · have hl := key _ hb
    have hne := Num.toSignedBytesLe_ne_nil (Num.ne_zero_of_mod hm)
    have hval : Num.fromSignedBytesLe (Num.toSignedBytesLe n.intVal) = n.intVal := by
      rw [Num.fromSignedBytesLe_eq, (Num.shortest_signed (Num.ne_zero_of_mod hm)).1]
    refine ⟨n, _, Num.same_symm hs, by
      rw [Format.serBigDecimal_eq mode v hf _ hb, BigDecimal.exec_ser _ (De.lt_64_of_lt_bits hl)],
      fun fin rest => ?_⟩
    rw [decimalWire, if_neg hne, List.append_assoc, Format.deBigDecimal, Prog.bind_eq,
      Prog.exec_bind, De.deVecU8_block _ _ _ _ hl, Prog.next_ok]
    simp only [hval, if_neg (Num.ne_zero_of_mod hm)]
    exact De.exec_wrap t fin _ (Num.Decimal.mk n.intVal) _ _ _ (De.deI64_wire t fin n.scale rest)

theorem reads_timeDate (t : Target) (mode : BuildMode) (d : Time.Date) (h : d.Valid) :
    Reads t (Format.serDate mode d) (Format.deDate mode) d (dateWire ⟨d.year, d.ordinal⟩) := by
  have hf : DateFits ⟨d.year, d.ordinal⟩ := ExistingDay.fits h
  refine ⟨Date.exec_ser mode ⟨d.year, d.ordinal⟩ fun _ => hf, fun fin rest => ?_⟩
  have hto : Date.toTime ⟨d.year, d.ordinal⟩ = some d :=
    (fromOrdinalDate_eq_some _ _ _).mpr ⟨rfl, h⟩
  rw [Format.exec_deDate_eq, Date.exec_de t fin mode _ (fun _ => hf), Prog.next_ok, hto]

theorem reads_offsetDateTime (t : Target) (d : Time.OffsetDateTime) (h : d.Valid)
    (hu : UtcInRange d) : ∃ w bs, (w.instant = d.instant ∧ w.offset = 0) ∧
      Reads t (Format.serDateTime d) Format.deDateTime w bs := by
  obtain ⟨e1, e2⟩ := valid_fits h
  refine ⟨⟨d.seconds, d.nanos, 0⟩, _, ⟨rfl, rfl⟩, DateTime.exec_ser (DateTime.ofTime d),
    fun fin rest => ?_⟩
  have hn := h.1
  obtain ⟨h1, h2⟩ := hu
  have hto : (DateTime.ofTime d).toTime = .ok ⟨d.seconds, d.nanos, 0⟩ := by
    rw [DateTime.toTime, DateTime.ofTime]
    simp only [fromUnix_some (s := Int64.ofInt d.seconds) (by omega) (by omega), addNanos_spec]
    rw [if_pos (by rw [e1, e2]; omega), e1, e2]
    simp only [Outcome.ok.injEq, Time.OffsetDateTime.mk.injEq, and_true]
    omega
  rw [Format.exec_deDateTime_eq, DateTime.exec_de, Prog.next_ok, hto]

/-! ## The value in the order of the environment -/

mutual
/-- `Spec.Returned`, but the iteration order of `HashMap`s is that of `env`. -/
def ReturnedBy (env : Env) : (T : RTy) → Carrier T → Carrier T → Prop
  | .option _, none, w => w = none
  | .option T, some v, w => ∃ u, w = some u ∧ ReturnedBy env T v u
  | .bigDecimal, v, w => w = if v.signedBytes = [] then ⟨[], 0⟩ else v
  | .numBigDecimal, v, w => SameNumber v w
  | .offsetDateTime, v, w => w.instant = v.instant ∧ w.offset = 0
  | .vec T, vs, ws => Pointwise (ReturnedBy env T) vs ws
  | .btreeMap T, es, ws => Pointwise (fun e w => e.1 = w.1 ∧ ReturnedBy env T e.2 w.2) es ws
  | .hashMap T, es, ws => ∃ ws', ws = env.order ws' ∧
      Pointwise (fun e w => e.1 = w.1 ∧ ReturnedBy env T e.2 w.2) es ws'
  | .tuple Ts, vs, ws => TupleReturnedBy env Ts vs ws
  | .struct _ (.named fs), vs, ws => FieldsReturnedBy env fs vs ws
  | .struct _ (.unnamed fs), vs, ws => FieldsReturnedBy env fs vs ws
  | .enum _ vs, v, w => VariantReturnedBy env vs v w
  | _, v, w => w = v
/-- Member by member. -/
def TupleReturnedBy (env : Env) : (Ts : List RTy) → TupleCarrier Ts → TupleCarrier Ts → Prop
  | [], _, _ => True
  | T :: Ts, (v, vs), (w, ws) => ReturnedBy env T v w ∧ TupleReturnedBy env Ts vs ws
/-- Field by field. -/
def FieldsReturnedBy (env : Env) : (fs : List RField) → FieldCarrier fs → FieldCarrier fs → Prop
  | [], _, _ => True
  | .mk attrs _ T :: fs, (v, vs), (w, ws) =>
    (if SkippedDe attrs then env.dflt attrs T = some w else ReturnedBy env T v w) ∧
      FieldsReturnedBy env fs vs ws
/-- The same variant. -/
def VariantReturnedBy (env : Env) : (vs : List RVariant) → VariantsCarrier vs → VariantsCarrier vs → Prop
  | .mk _ _ (.named fs) :: _, .inl v, .inl w => FieldsReturnedBy env fs v w
  | .mk _ _ (.unnamed fs) :: _, .inl v, .inl w => FieldsReturnedBy env fs v w
  | .mk _ _ .unit :: _, .inl _, .inl _ => True
  | .mk _ _ _ :: vs, .inr v, .inr w => VariantReturnedBy env vs v w
  | .mk _ _ _ :: _, .inl _, .inr _ => False
  | .mk _ _ _ :: _, .inr _, .inl _ => False
end

theorem pointwise_mono {α β : Type} {R S : α → β → Prop} : (vs : List α) → (ws : List β) →
    (∀ v ∈ vs, ∀ w ∈ ws, R v w → S v w) → Pointwise R vs ws → Pointwise S vs ws
  | [], [], _, _ => trivial
  | v :: vs, w :: ws, h, hp => ⟨h v (by simp) w (by simp) hp.1,
      pointwise_mono vs ws (fun v hv w hw => h v (by simp [hv]) w (by simp [hw])) hp.2⟩

mutual
theorem returned_of_by {env : Env} (ho : FairOrder env) : (T : RTy) → (v w : Carrier T) →
    ReturnedBy env T v w → Returned env T v w
  | .unit, _, _, _ => by simp [Returned]
  | .bool, _, _, h => by simpa [ReturnedBy, Returned] using h
  | .u8, _, _, h => by simpa [ReturnedBy, Returned] using h
  | .u16, _, _, h => by simpa [ReturnedBy, Returned] using h
  | .u32, _, _, h => by simpa [ReturnedBy, Returned] using h
  | .u64, _, _, h => by simpa [ReturnedBy, Returned] using h
  | .i8, _, _, h => by simpa [ReturnedBy, Returned] using h
  | .i16, _, _, h => by simpa [ReturnedBy, Returned] using h
  | .i32, _, _, h => by simpa [ReturnedBy, Returned] using h
  | .i64, _, _, h => by simpa [ReturnedBy, Returned] using h
  | .f32, _, _, h => by simpa [ReturnedBy, Returned] using h
  | .f64, _, _, h => by simpa [ReturnedBy, Returned] using h
  | .bigUint, _, _, h => by simpa [ReturnedBy, Returned] using h
  | .numBigUint, _, _, h => by simpa [ReturnedBy, Returned] using h
  | .bigInt, _, _, h => by simpa [ReturnedBy, Returned] using h
  | .numBigInt, _, _, h => by simpa [ReturnedBy, Returned] using h
  | .bigDecimal, _, _, h => by simpa [ReturnedBy, Returned] using h
  | .numBigDecimal, _, _, h => by simpa [ReturnedBy, Returned] using h
  | .str, _, _, h => by simpa [ReturnedBy, Returned] using h
  | .string, _, _, h => by simpa [ReturnedBy, Returned] using h
  | .bytes, _, _, h => by simpa [ReturnedBy, Returned] using h
  | .byteBuf, _, _, h => by simpa [ReturnedBy, Returned] using h
  | .date, _, _, h => by simpa [ReturnedBy, Returned] using h
  | .timeDate, _, _, h => by simpa [ReturnedBy, Returned] using h
  | .dateTime, _, _, h => by simpa [ReturnedBy, Returned] using h
  | .offsetDateTime, _, _, h => by simpa [ReturnedBy, Returned] using h
  | .foreign, _, _, h => by simpa [ReturnedBy, Returned] using h
  | .union _, v, _, _ => nomatch v
  | .option _, none, _, h => by simpa [ReturnedBy, Returned] using h
  | .option T, some v, w, h => by
    simp only [ReturnedBy, Returned] at h ⊢
    obtain ⟨u, e, hu⟩ := h
    exact ⟨u, e, returned_of_by ho T v u hu⟩
  | .vec T, vs, ws, h => by
    rw [ReturnedBy] at h
    rw [Returned]
    exact pointwise_mono vs ws (fun v _ w _ h => returned_of_by ho T v w h) h
  | .btreeMap T, vs, ws, h => by
    rw [ReturnedBy] at h
    rw [Returned]
    exact pointwise_mono vs ws (fun v _ w _ h => ⟨h.1, returned_of_by ho T v.2 w.2 h.2⟩) h
  | .hashMap T, vs, ws, h => by
    rw [ReturnedBy] at h
    rw [Returned]
    obtain ⟨ws', e, h⟩ := h
    exact ⟨ws', e ▸ ho ws',
      pointwise_mono vs ws' (fun v _ w _ h => ⟨h.1, returned_of_by ho T v.2 w.2 h.2⟩) h⟩
  | .tuple Ts, vs, ws, h => by
    rw [ReturnedBy] at h
    rw [Returned]
    exact tupleReturned_of_by ho Ts vs ws h
  | .struct _ (.named fs), vs, ws, h => by
    rw [ReturnedBy] at h
    rw [Returned]
    exact fieldsReturned_of_by ho fs vs ws h
  | .struct _ (.unnamed fs), vs, ws, h => by
    rw [ReturnedBy] at h
    rw [Returned]
    exact fieldsReturned_of_by ho fs vs ws h
  | .struct _ .unit, _, _, _ => by simp [Returned]
  | .enum _ vs, v, w, h => by
    rw [ReturnedBy] at h
    rw [Returned]
    exact variantReturned_of_by ho vs v w h
theorem tupleReturned_of_by {env : Env} (ho : FairOrder env) : (Ts : List RTy) →
    (v w : TupleCarrier Ts) → TupleReturnedBy env Ts v w → TupleReturned env Ts v w
  | [], _, _, _ => by simp [TupleReturned]
  | T :: Ts, (v, vs), (w, ws), h => by
    rw [TupleReturnedBy] at h
    rw [TupleReturned]
    exact ⟨returned_of_by ho T v w h.1, tupleReturned_of_by ho Ts vs ws h.2⟩
theorem fieldsReturned_of_by {env : Env} (ho : FairOrder env) : (fs : List RField) →
    (v w : FieldCarrier fs) → FieldsReturnedBy env fs v w → FieldsReturned env fs v w
  | [], _, _, _ => by simp [FieldsReturned]
  | .mk attrs _ T :: fs, (v, vs), (w, ws), h => by
    rw [FieldsReturnedBy] at h
    rw [FieldsReturned]
    refine ⟨?_, fieldsReturned_of_by ho fs vs ws h.2⟩
    by_cases hk : SkippedDe attrs
    · rw [if_pos hk] at h ⊢
      exact h.1
    · rw [if_neg hk] at h ⊢
      exact returned_of_by ho T v w h.1
theorem variantReturned_of_by {env : Env} (ho : FairOrder env) : (vs : List RVariant) →
    (v w : VariantsCarrier vs) → VariantReturnedBy env vs v w → VariantReturned env vs v w
  | .mk _ _ (.named fs) :: _, .inl v, .inl w, h => by
    rw [VariantReturnedBy] at h
    rw [VariantReturned]
    exact fieldsReturned_of_by ho fs v w h
  | .mk _ _ (.unnamed fs) :: _, .inl v, .inl w, h => by
    rw [VariantReturnedBy] at h
    rw [VariantReturned]
    exact fieldsReturned_of_by ho fs v w h
  | .mk _ _ .unit :: _, .inl _, .inl _, _ => by rw [VariantReturned]; trivial
  | .mk _ _ fields :: vs, .inr v, .inr w, h => by
    have h' : VariantReturnedBy env vs v w := by
      cases fields <;> (rw [VariantReturnedBy] at h; exact h)
    have := variantReturned_of_by ho vs v w h'
    cases fields <;> (rw [VariantReturned]; exact this)
  | .mk _ _ fields :: _, .inl _, .inr _, h => by
    cases fields <;> (rw [VariantReturnedBy] at h; exact h.elim)
  | .mk _ _ fields :: _, .inr _, .inl _, h => by
    cases fields <;> (rw [VariantReturnedBy] at h; exact h.elim)
end

/-! ## All types -/

mutual
theorem reads_by (t : Target) (mode : BuildMode) (env : Env)
    (hm : 4096 ≤ t.memLimit) : (T : RTy) → (∀ U ∈ typeParts T, TypeOk env U) → (v : Carrier T) →
    (∀ p ∈ valueParts T v, ValueOk t mode p) →
    ∃ w bs, ReturnedBy env T v w ∧ Reads t (ser mode T v) (deTy t mode env T) w bs
  | .unit, _, v, _ => ⟨(), [], by simp [ReturnedBy], by rw [ser, deTy]; exact .nil⟩
  | .bool, _, v, _ => ⟨v, [if v then 1 else 0], by simp [ReturnedBy], by
      rw [ser, deTy]
      exact ⟨by cases v <;> exact Ser.exec_emit _, fun fin rest => De.deBool_byte t fin v rest⟩⟩
  | .u8, _, v, _ => ⟨v, [v], by simp [ReturnedBy], by
      rw [ser, deTy]; exact ⟨Ser.exec_emit _, fun fin rest => De.deU8_wire t fin v rest⟩⟩
  | .u16, _, v, _ => ⟨v, _, by simp [ReturnedBy], by
      rw [ser, deTy]
      refine ⟨Ser.exec_serU16 v, fun fin rest => ?_⟩
      rw [De.deU16, De.exec_u16_varint _ _ _ (UInt16.toNat_lt _), UInt16.ofNat_toNat]⟩
  | .u32, _, v, _ => ⟨v, _, by simp [ReturnedBy], by
      rw [ser, deTy]
      refine ⟨Ser.exec_serU32 v, fun fin rest => ?_⟩
      rw [De.deU32, De.exec_u32_varint _ _ _ (UInt32.toNat_lt _), UInt32.ofNat_toNat]⟩
  | .u64, _, v, _ => ⟨v, _, by simp [ReturnedBy], by
      rw [ser, deTy]
      refine ⟨Ser.exec_serU64 v, fun fin rest => ?_⟩
      rw [De.deU64, De.exec_u64_varint _ _ _ (UInt64.toNat_lt _), UInt64.ofNat_toNat]⟩
  | .i8, _, v, _ => ⟨v, [v.toUInt8], by simp [ReturnedBy], by
      rw [ser, deTy]; exact ⟨Ser.exec_emit _, fun fin rest => De.deI8_wire t fin v rest⟩⟩
  | .i16, _, v, _ => ⟨v, _, by simp [ReturnedBy], by
      rw [ser, deTy]; exact ⟨Ser.exec_serI16 v, fun fin rest => De.deI16_wire t fin v rest⟩⟩
  | .i32, _, v, _ => ⟨v, _, by simp [ReturnedBy], by
      rw [ser, deTy]; exact ⟨Ser.exec_serI32 v, fun fin rest => De.deI32_wire t fin v rest⟩⟩
  | .i64, _, v, _ => ⟨v, _, by simp [ReturnedBy], by
      rw [ser, deTy]; exact ⟨Ser.exec_serI64 v, fun fin rest => De.deI64_wire t fin v rest⟩⟩
  | .f32, _, v, _ => ⟨v, _, by simp [ReturnedBy], by
      rw [ser, deTy]; exact ⟨Ser.exec_serF32 v, fun fin rest => De.deF32_wire t fin v rest⟩⟩
  | .f64, _, v, _ => ⟨v, _, by simp [ReturnedBy], by
      rw [ser, deTy]; exact ⟨Ser.exec_serF64 v, fun fin rest => De.deF64_wire t fin v rest⟩⟩
  | .bigUint, _, v, hv => ⟨v, _, by simp [ReturnedBy], by
      have hl : v.bytes.length < 2 ^ t.ptr.bits := (hv _ (self_mem_valueParts _ _)).real
      rw [ser, deTy]
      exact ⟨BigUint.exec_ser v (De.lt_64_of_lt_bits hl), fun fin rest => BigUint.exec_de t fin v hl rest⟩⟩
  | .numBigUint, _, n, hv => by
    obtain ⟨bs, h1, h2⟩ := (hv _ (self_mem_valueParts _ _)).real
    exact ⟨n, _, by simp [ReturnedBy], by rw [ser, deTy]; exact reads_numBigUint t n bs h1 h2⟩
  | .bigInt, _, v, hv => ⟨v, _, by simp [ReturnedBy], by
      have hl : v.bytes.length < 2 ^ t.ptr.bits := (hv _ (self_mem_valueParts _ _)).real
      rw [ser, deTy]
      exact ⟨BigInt.exec_ser v (De.lt_64_of_lt_bits hl), fun fin rest => BigInt.exec_de t fin v hl rest⟩⟩
  | .numBigInt, _, x, hv => by
    obtain ⟨bs, h1, h2⟩ := (hv _ (self_mem_valueParts _ _)).real
    exact ⟨x, _, by simp [ReturnedBy], by rw [ser, deTy]; exact reads_numBigInt t x bs h1 h2⟩
  | .bigDecimal, _, v, hv => ⟨_, _, by rw [ReturnedBy], by
      rw [ser, deTy]; exact reads_bigDecimal t v (hv _ (self_mem_valueParts _ _)).real⟩
  | .numBigDecimal, _, v, hv => by
    obtain ⟨⟨bs, h1, h2⟩, hf⟩ := (hv _ (self_mem_valueParts _ _)).real
    obtain ⟨w, bs', h3, h4⟩ := reads_numBigDecimal t mode v bs h1 h2 hf
    exact ⟨w, bs', by rw [ReturnedBy]; exact h3, by rw [ser, deTy]; exact h4⟩
  | .str, hT, _, _ => (hT _ (self_mem_typeParts _)).1.elim
  | .string, _, v, hv => ⟨v, _, by simp [ReturnedBy], by
      have hl : (utf8 v).length < 2 ^ t.ptr.bits := (hv _ (self_mem_valueParts _ _)).real
      rw [ser, deTy]
      exact ⟨Ser.exec_serStr v (De.lt_64_of_lt_bits hl), fun fin rest => De.deString_block t fin v hl rest⟩⟩
  | .bytes, hT, _, _ => (hT _ (self_mem_typeParts _)).1.elim
  | .byteBuf, _, v, hv => ⟨v, _, by simp [ReturnedBy], by
      have hl : v.length < 2 ^ t.ptr.bits := (hv _ (self_mem_valueParts _ _)).real
      rw [ser, deTy]
      exact ⟨Ser.exec_serBytes v (De.lt_64_of_lt_bits hl), fun fin rest =>
        De.deByteBuf_block t hm fin v rest hl⟩⟩
  | .date, _, v, hv => ⟨v, _, by simp [ReturnedBy], by
      have hf : mode = .debug → DateFits v := fun e => (hv _ (self_mem_valueParts _ _)).date e _ rfl
      rw [ser, deTy]
      exact ⟨Date.exec_ser mode v hf, fun fin rest => Date.exec_de t fin mode v hf rest⟩⟩
  | .timeDate, _, v, hv => ⟨v, _, by simp [ReturnedBy], by
      rw [ser, deTy]; exact reads_timeDate t mode v (hv _ (self_mem_valueParts _ _)).real⟩
  | .dateTime, _, v, _ => ⟨v, _, by simp [ReturnedBy], by
      rw [ser, deTy]; exact ⟨DateTime.exec_ser v, fun fin rest => DateTime.exec_de t fin v rest⟩⟩
  | .offsetDateTime, _, v, hv => by
    have hs := hv _ (self_mem_valueParts _ _)
    obtain ⟨w, bs, h1, h2⟩ := reads_offsetDateTime t v hs.real (hs.instant v rfl)
    exact ⟨w, bs, by rw [ReturnedBy]; exact h1, by rw [ser, deTy]; exact h2⟩
  | .option T, _, none, _ => by
    refine ⟨none, [0], by rw [ReturnedBy], by rw [ser]; exact Ser.exec_emit _, fun fin rest => ?_⟩
    have := De.deBool_byte t fin false rest
    simp only [Bool.false_eq_true, if_false] at this
    rw [deTy, Prog.bind_eq, Prog.exec_bind, List.singleton_append, this]
    rfl
  | .option T, hT, some v, hv => by
    obtain ⟨w, bs, hR, hr⟩ := reads_by t mode env hm T (fun U hU => hT U (by simp [typeParts, hU])) v
      (fun p hp => hv p (by simp [valueParts, hp]))
    refine ⟨some w, 1 :: bs, by rw [ReturnedBy]; exact ⟨w, rfl, hR⟩, ?_, fun fin rest => ?_⟩
    · rw [ser, WProg.exec_andThen_ok (Ser.exec_emit _), hr.bytes]; rfl
    · have := De.deBool_byte t fin true (bs ++ rest)
      simp only [if_true] at this
      rw [deTy, Prog.bind_eq, Prog.exec_bind, List.cons_append, this, Prog.next_ok, if_pos rfl]
      exact De.exec_wrap t fin _ Option.some _ _ _ (hr.decodes fin rest)
  | .vec T, hT, vs, hv => by
    have hl : vs.length < 2 ^ t.ptr.bits := (hv _ (self_mem_valueParts _ _)).real
    obtain ⟨ws, bs, hR, hr⟩ := reads_seq (t := t) (f := ser mode T) (q := deTy t mode env T)
      (R := ReturnedBy env T) vs fun v hvm =>
        reads_by t mode env hm T (fun U hU => hT U (by simp [typeParts, hU])) v (fun p hp => hv p (by
          rw [valueParts]
          exact List.mem_cons_of_mem _ (List.mem_flatten.mpr ⟨_, List.mem_map_of_mem hvm, hp⟩)))
    refine ⟨ws, varint 64 vs.length ++ bs, by rw [ReturnedBy]; exact hR, ?_, fun fin rest => ?_⟩
    · rw [ser, WProg.exec_andThen_ok (Ser.exec_serHint _ (by simpa using De.lt_64_of_lt_bits hl)),
        hr.bytes]
      rfl
    · rw [deTy, Prog.bind_eq, Prog.exec_bind, List.append_assoc, De.deU64,
        De.exec_u64_varint _ _ _ (De.lt_64_of_lt_bits hl), Prog.next_ok, De.asUsize_ofNat hl]
      exact hr.decodes fin rest
  | .btreeMap T, hT, es, hv => by
    obtain ⟨hl, hk, hasc⟩ := (hv _ (self_mem_valueParts _ _)).real
    obtain ⟨ws, bs, hR, hks, hr⟩ := reads_map (t := t) (f := ser mode T) (q := deTy t mode env T)
      (R := ReturnedBy env T) es hk fun e he =>
        reads_by t mode env hm T (fun U hU => hT U (by simp [typeParts, hU])) e.2 (fun p hp => hv p (by
          rw [valueParts]
          exact List.mem_cons_of_mem _ (List.mem_flatten.mpr
            ⟨_, List.mem_map_of_mem (f := fun e => valueParts T e.2) he, hp⟩)))
    refine ⟨ws, varint 64 es.length ++ bs, by rw [ReturnedBy]; exact hR, ?_⟩
    have h := Reads.counted hl hr collectBTree
    rw [collectBTree_ascending ws (ascending_keys hasc hks)] at h
    rw [ser, deTy]
    exact h
  | .hashMap T, hT, es, hv => by
    obtain ⟨hl, hk, hnd⟩ := (hv _ (self_mem_valueParts _ _)).real
    obtain ⟨ws, bs, hR, hks, hr⟩ := reads_map (t := t) (f := ser mode T) (q := deTy t mode env T)
      (R := ReturnedBy env T) es hk fun e he =>
        reads_by t mode env hm T (fun U hU => hT U (by simp [typeParts, hU])) e.2 (fun p hp => hv p (by
          rw [valueParts]
          exact List.mem_cons_of_mem _ (List.mem_flatten.mpr
            ⟨_, List.mem_map_of_mem (f := fun e => valueParts T e.2) he, hp⟩)))
    have hn : (ws.map Prod.fst).Nodup := by
      rw [hks, List.nodup_iff_pairwise_ne, List.pairwise_map]
      exact hnd
    refine ⟨env.order ws, varint 64 es.length ++ bs, by rw [ReturnedBy]; exact ⟨ws, rfl, hR⟩, ?_⟩
    have h := Reads.counted hl hr fun es => env.order (collectHash es)
    rw [collectHash_nodup ws hn] at h
    rw [ser, deTy]
    exact h
  | .tuple Ts, hT, vs, hv => by
    obtain ⟨ws, bs, hR, hr⟩ := reads_by_tuple t mode env hm Ts
      (fun U hU => hT U (by simp [typeParts, hU])) vs (fun p hp => hv p (by simp [valueParts, hp]))
    exact ⟨ws, bs, by rw [ReturnedBy]; exact hR, by rw [ser, deTy]; exact hr⟩
  | .struct name (.named fs), hT, vs, hv => by
    have hself := hT _ (self_mem_typeParts _)
    obtain ⟨ws, bs, hR, hr⟩ := reads_by_fields t mode env hm fs hself.2.1 hself.2.2
      (fun U hU => hT U (by simp [typeParts, hU])) vs (fun p hp => hv p (by simp [valueParts, hp]))
    exact ⟨ws, bs, by rw [ReturnedBy]; exact hR, by rw [ser, deTy]; exact hr⟩
  | .struct name (.unnamed fs), hT, vs, hv => by
    have hself := hT _ (self_mem_typeParts _)
    obtain ⟨ws, bs, hR, hr⟩ := reads_by_fields t mode env hm fs hself.2.1.1 hself.2.2
      (fun U hU => hT U (by simp [typeParts, hU])) vs (fun p hp => hv p (by simp [valueParts, hp]))
    refine ⟨ws, bs, by rw [ReturnedBy]; exact hR, ?_⟩
    match fs, vs, ws, hself, hr with
    | [], vs, ws, _, hr =>
      rw [ser, deTy]
      rw [serFields, deFields] at hr
      exact hr
    | [.mk attrs n T], (v, ()), (w, ()), hself, hr =>
      have hns : ¬ Skipped attrs := hself.2.1.2 rfl (.mk attrs n T) List.mem_cons_self
      have hnd : ¬ SkippedDe attrs := fun h => hns ((hself.2.1.1 (.mk attrs n T) List.mem_cons_self).1.mpr h)
      rw [serFields, if_neg (by rw [serdeSkips_iff]; exact hns), serFields, deFields,
        if_neg (by rw [deSkips_iff]; exact hnd), deFields] at hr
      rw [ser, deTy]
      refine ⟨?_, hr.decodes⟩
      have hb := hr.bytes
      rw [WProg.exec_andThen] at hb
      cases hx : (ser mode T v).exec with
      | mk o r => cases r <;> simp_all [WProg.exec, WProg.skip]
    | f :: g :: fs, vs, ws, _, hr => rw [ser, deTy]; exact hr
  | .struct name .unit, _, v, _ => ⟨(), [], by simp [ReturnedBy], by rw [ser, deTy]; exact .nil⟩
  | .enum name vs, hT, v, hv => by
    have hself := hT _ (self_mem_typeParts _)
    obtain ⟨n, w, bs, hn, hR, h1, h2⟩ := reads_by_variant t mode env hm vs hself.2.1.2 hself.2.2
      (fun U hU => hT U (by simp [typeParts, hU])) name 0
      (by have := hself.2.1.1; omega) v (fun p hp => hv p (by simp [valueParts, hp]))
    have hlen : vs.length ≤ 16384 := hself.2.1.1
    rw [Nat.zero_add] at h1
    refine ⟨w, varint 32 n ++ bs, by rw [ReturnedBy]; exact hR, by rw [ser]; exact h1, fun fin rest => ?_⟩
    rw [deTy, Prog.bind_eq, Prog.exec_bind, List.append_assoc, De.varint_32_16 n (by omega), De.deU16,
      De.exec_u16_varint _ _ _ (by omega), Prog.next_ok, UInt16.toNat_ofNat',
      Nat.mod_eq_of_lt (by omega)]
    exact h2 fin rest _
  | .union _, _, v, _ => nomatch v
  | .foreign, hT, _, _ => (hT _ (self_mem_typeParts _)).1.elim
theorem reads_by_tuple (t : Target) (mode : BuildMode) (env : Env)
    (hm : 4096 ≤ t.memLimit) : (Ts : List RTy) → (∀ U ∈ typePartsAll Ts, TypeOk env U) →
    (vs : TupleCarrier Ts) → (∀ p ∈ valuePartsAll Ts vs, ValueOk t mode p) →
    ∃ ws bs, TupleReturnedBy env Ts vs ws ∧ Reads t (serTuple mode Ts vs) (deTuple t mode env Ts) ws bs
  | [], _, _, _ => ⟨(), [], by simp [TupleReturnedBy], by rw [serTuple, deTuple]; exact .nil⟩
  | T :: Ts, hT, (v, vs), hv => by
    obtain ⟨w, bs, hR, hr⟩ := reads_by t mode env hm T
      (fun U hU => hT U (by simp [typePartsAll, hU])) v
      (fun p hp => hv p (by simp [valuePartsAll, hp]))
    obtain ⟨ws, bs', hRs, hrs⟩ := reads_by_tuple t mode env hm Ts
      (fun U hU => hT U (by simp [typePartsAll, hU])) vs
      (fun p hp => hv p (by simp [valuePartsAll, hp]))
    exact ⟨(w, ws), bs ++ bs', by rw [TupleReturnedBy]; exact ⟨hR, hRs⟩, by
      rw [serTuple, deTuple]; exact hr.seq hrs Prod.mk⟩
theorem reads_by_fields (t : Target) (mode : BuildMode) (env : Env)
    (hm : 4096 ≤ t.memLimit) : (fs : List RField) → SymmetricFields fs → DefaultedFields env fs →
    (∀ U ∈ typePartsFields fs, TypeOk env U) → (vs : FieldCarrier fs) →
    (∀ p ∈ valuePartsFields fs vs, ValueOk t mode p) →
    ∃ ws bs, FieldsReturnedBy env fs vs ws ∧
      Reads t (serFields mode fs vs) (deFields t mode env fs) ws bs
  | [], _, _, _, _, _ => ⟨(), [], by simp [FieldsReturnedBy], by rw [serFields, deFields]; exact .nil⟩
  | .mk attrs name T :: fs, hs, hd, hT, (v, vs), hv => by
    obtain ⟨ws, bs', hRs, hrs⟩ := reads_by_fields t mode env hm fs
      (fun f hf => hs f (by simp [hf])) (fun f hf => hd f (by simp [hf]))
      (fun U hU => hT U (by simp [typePartsFields, hU])) vs
      (fun p hp => hv p (by simp [valuePartsFields, hp]))
    have hsym : Skipped attrs ↔ SkippedDe attrs := (hs _ List.mem_cons_self).1
    by_cases hk : Skipped attrs
    · have hk' := hsym.mp hk
      have hex : ∃ w, env.dflt attrs T = some w := hd _ List.mem_cons_self hk'
      obtain ⟨w, hw⟩ := hex
      refine ⟨(w, ws), bs', by rw [FieldsReturnedBy, if_pos hk']; exact ⟨hw, hRs⟩, ?_⟩
      rw [serFields, if_pos ((serdeSkips_iff attrs).mpr hk), deFields,
        if_pos ((deSkips_iff attrs).mpr hk')]
      simp only [hw]
      exact hrs.map (Prod.mk w)
    · have hk' : ¬ SkippedDe attrs := fun h => hk (hsym.mpr h)
      obtain ⟨w, bs, hR, hr⟩ := reads_by t mode env hm T
        (fun U hU => hT U (by simp [typePartsFields, hk, hU])) v
        (fun p hp => hv p (by simp [valuePartsFields, hk, hp]))
      refine ⟨(w, ws), bs ++ bs', by rw [FieldsReturnedBy, if_neg hk']; exact ⟨hR, hRs⟩, ?_⟩
      rw [serFields, if_neg (by rw [serdeSkips_iff]; exact hk), deFields,
        if_neg (by rw [deSkips_iff]; exact hk')]
      exact hr.seq hrs Prod.mk
theorem reads_by_variant (t : Target) (mode : BuildMode) (env : Env)
    (hm : 4096 ≤ t.memLimit) : (vs : List RVariant) →
    (∀ v ∈ vs, ¬ Skipped (variantAttrs v) ∧ ¬ SkippedDe (variantAttrs v) ∧
      SymmetricFields (Spec.variantFields v)) →
    (∀ v ∈ vs, DefaultedFields env (Spec.variantFields v)) →
    (∀ U ∈ typePartsVariants vs, TypeOk env U) → (name : String) → (i : Nat) →
    i + vs.length ≤ 2 ^ 32 → (v : VariantsCarrier vs) →
    (∀ p ∈ valuePartsVariant vs v, ValueOk t mode p) →
    ∃ n w bs, n < vs.length ∧ VariantReturnedBy env vs v w ∧
      (serVariant mode name i vs v).exec = (varint 32 (i + n) ++ bs, .ok ()) ∧
      ∀ fin rest idx, Prog.exec t fin (deVariant t mode env idx n vs) (bs ++ rest) = .ok (w, rest)
  | .mk attrs vn fields :: vs, hs, hd, hT, name, i, hi, .inl v, hv => by
    obtain ⟨hk, hk', hsf⟩ := hs _ List.mem_cons_self
    have hdf := hd _ List.mem_cons_self
    have hsk : ¬ serdeSkips attrs = true := by rw [serdeSkips_iff]; exact hk
    have hdk : ¬ deSkips attrs = true := by rw [deSkips_iff]; exact hk'
    have hto : (UInt32.ofNat i).toNat = i := by
      rw [List.length_cons] at hi; rw [UInt32.toNat_ofNat']; omega
    cases fields with
    | named fs =>
      obtain ⟨w, bs, hR, hr⟩ := reads_by_fields t mode env hm fs hsf hdf
        (fun U hU => hT U (by simp [typePartsVariants, hU])) v
        (fun p hp => hv p (by simpa [valuePartsVariant] using hp))
      refine ⟨0, .inl w, bs, Nat.succ_pos _, by rw [VariantReturnedBy]; exact hR, ?_, fun fin rest idx => ?_⟩
      · rw [serVariant, if_neg hsk, WProg.exec_andThen_ok (Ser.exec_serU32 _), hto, hr.bytes]; rfl
      · rw [deVariant, if_neg hdk, dePayload]
        exact De.exec_wrap t fin _ Sum.inl _ _ _ (hr.decodes fin rest)
    | unnamed fs =>
      obtain ⟨w, bs, hR, hr⟩ := reads_by_fields t mode env hm fs hsf hdf
        (fun U hU => hT U (by simp [typePartsVariants, hU])) v
        (fun p hp => hv p (by simpa [valuePartsVariant] using hp))
      refine ⟨0, .inl w, bs, Nat.succ_pos _, by rw [VariantReturnedBy]; exact hR, ?_, fun fin rest idx => ?_⟩
      · rw [serVariant, if_neg hsk, WProg.exec_andThen_ok (Ser.exec_serU32 _), hto, hr.bytes]; rfl
      · rw [deVariant, if_neg hdk, dePayload]
        exact De.exec_wrap t fin _ Sum.inl _ _ _ (hr.decodes fin rest)
    | unit =>
      refine ⟨0, .inl (), [], Nat.succ_pos _, by simp [VariantReturnedBy], ?_, fun fin rest idx => ?_⟩
      · rw [serVariant, if_neg hsk, WProg.exec_andThen_ok (Ser.exec_serU32 _), hto]; rfl
      · rw [deVariant, if_neg hdk, dePayload]
        rfl
  | .mk attrs vn fields :: vs, hs, hd, hT, name, i, hi, .inr v, hv => by
    have hdk : ¬ deSkips attrs = true := by
      rw [deSkips_iff]; exact (hs _ List.mem_cons_self).2.1
    obtain ⟨n, w, bs, hn, hR, h1, h2⟩ := reads_by_variant t mode env hm vs
      (fun v hvm => hs v (by simp [hvm])) (fun v hvm => hd v (by simp [hvm]))
      (fun U hU => hT U (by cases fields <;> simp [typePartsVariants, hU])) name (i + 1)
      (by rw [List.length_cons] at hi; omega) v
      (fun p hp => hv p (by cases fields <;> simpa [valuePartsVariant] using hp))
    rw [show i + 1 + n = i + (n + 1) by omega] at h1
    refine ⟨n + 1, .inr w, bs, by simpa using hn, ?_, by rw [serVariant]; exact h1, fun fin rest idx => ?_⟩
    · cases fields <;> (rw [VariantReturnedBy]; exact hR)
    · rw [deVariant, if_neg hdk]
      exact De.exec_wrap t fin _ Sum.inr _ _ _ (h2 fin rest idx)
end

theorem reads (t : Target) (mode : BuildMode) (env : Env) (ho : FairOrder env)
    (hm : 4096 ≤ t.memLimit) (T : RTy) (hT : ∀ U ∈ typeParts T, TypeOk env U) (v : Carrier T)
    (hv : ∀ p ∈ valueParts T v, ValueOk t mode p) :
    ∃ w bs, Returned env T v w ∧ Reads t (ser mode T v) (deTy t mode env T) w bs := by
  obtain ⟨w, bs, h1, h2⟩ := reads_by t mode env hm T hT v hv
  exact ⟨w, bs, returned_of_by ho T v w h1, h2⟩

/-! ## Nothing lost -/

theorem pointwise_eq {α : Type} {R : α → α → Prop} : (vs ws : List α) →
    (∀ v ∈ vs, ∀ w, R v w → w = v) → Pointwise R vs ws → ws = vs
  | [], [], _, _ => rfl
  | v :: vs, w :: ws, h, hp => by
    rw [h v (by simp) w hp.1, pointwise_eq vs ws (fun v hv => h v (by simp [hv])) hp.2]

mutual
theorem returned_eq (env : Env) : (T : RTy) → (∀ U ∈ typeParts T, LosslessPart U ∧ SymmetricPart U) →
    (v w : Carrier T) → Returned env T v w → w = v
  | .unit, _, _, _, _ => rfl
  | .bool, _, _, _, h => by simpa [Returned] using h
  | .u8, _, _, _, h => by simpa [Returned] using h
  | .u16, _, _, _, h => by simpa [Returned] using h
  | .u32, _, _, _, h => by simpa [Returned] using h
  | .u64, _, _, _, h => by simpa [Returned] using h
  | .i8, _, _, _, h => by simpa [Returned] using h
  | .i16, _, _, _, h => by simpa [Returned] using h
  | .i32, _, _, _, h => by simpa [Returned] using h
  | .i64, _, _, _, h => by simpa [Returned] using h
  | .f32, _, _, _, h => by simpa [Returned] using h
  | .f64, _, _, _, h => by simpa [Returned] using h
  | .bigUint, _, _, _, h => by simpa [Returned] using h
  | .numBigUint, _, _, _, h => by simpa [Returned] using h
  | .bigInt, _, _, _, h => by simpa [Returned] using h
  | .numBigInt, _, _, _, h => by simpa [Returned] using h
  | .bigDecimal, hT, _, _, _ => (hT _ (self_mem_typeParts _)).1.elim
  | .numBigDecimal, hT, _, _, _ => (hT _ (self_mem_typeParts _)).1.elim
  | .str, _, _, _, h => by simpa [Returned] using h
  | .string, _, _, _, h => by simpa [Returned] using h
  | .bytes, _, _, _, h => by simpa [Returned] using h
  | .byteBuf, _, _, _, h => by simpa [Returned] using h
  | .date, _, _, _, h => by simpa [Returned] using h
  | .timeDate, _, _, _, h => by simpa [Returned] using h
  | .dateTime, _, _, _, h => by simpa [Returned] using h
  | .offsetDateTime, hT, _, _, _ => (hT _ (self_mem_typeParts _)).1.elim
  | .option T, _, none, w, h => by simpa [Returned] using h
  | .option T, hT, some v, w, h => by
    rw [Returned] at h
    obtain ⟨u, rfl, hu⟩ := h
    rw [returned_eq env T (fun U hU => hT U (by simp [typeParts, hU])) v u hu]
  | .vec T, hT, vs, ws, h => by
    rw [Returned] at h
    exact pointwise_eq vs ws (fun v _ w hw =>
      returned_eq env T (fun U hU => hT U (by simp [typeParts, hU])) v w hw) h
  | .btreeMap T, hT, vs, ws, h => by
    rw [Returned] at h
    exact pointwise_eq vs ws (fun v _ w hw => Prod.ext hw.1.symm
      (returned_eq env T (fun U hU => hT U (by simp [typeParts, hU])) v.2 w.2 hw.2)) h
  | .hashMap _, hT, _, _, _ => (hT _ (self_mem_typeParts _)).1.elim
  | .tuple Ts, hT, vs, ws, h => by
    rw [Returned] at h
    exact tupleReturned_eq env Ts (fun U hU => hT U (by simp [typeParts, hU])) vs ws h
  | .struct _ (.named fs), hT, vs, ws, h => by
    have hs := hT _ (self_mem_typeParts _)
    rw [Returned] at h
    exact fieldsReturned_eq env fs hs.1 hs.2 (fun U hU => hT U (by simp [typeParts, hU])) vs ws h
  | .struct _ (.unnamed fs), hT, vs, ws, h => by
    have hs := hT _ (self_mem_typeParts _)
    rw [Returned] at h
    exact fieldsReturned_eq env fs hs.1 hs.2.1 (fun U hU => hT U (by simp [typeParts, hU])) vs ws h
  | .struct _ .unit, _, _, _, _ => rfl
  | .enum _ vs, hT, v, w, h => by
    have hs := hT _ (self_mem_typeParts _)
    rw [Returned] at h
    exact variantReturned_eq env vs hs.1 (fun v hv => (hs.2.2 v hv).2.2)
      (fun U hU => hT U (by simp [typeParts, hU])) v w h
  | .union _, _, v, _, _ => nomatch v
  | .foreign, _, _, _, h => by simpa [Returned] using h
theorem tupleReturned_eq (env : Env) : (Ts : List RTy) →
    (∀ U ∈ typePartsAll Ts, LosslessPart U ∧ SymmetricPart U) →
    (vs ws : TupleCarrier Ts) → TupleReturned env Ts vs ws → ws = vs
  | [], _, _, _, _ => rfl
  | T :: Ts, hT, (v, vs), (w, ws), h => by
    rw [TupleReturned] at h
    rw [returned_eq env T (fun U hU => hT U (by simp [typePartsAll, hU])) v w h.1,
      tupleReturned_eq env Ts (fun U hU => hT U (by simp [typePartsAll, hU])) vs ws h.2]
theorem fieldsReturned_eq (env : Env) : (fs : List RField) →
    (∀ f ∈ fs, ¬ SkippedDe (fieldAttrs f)) → SymmetricFields fs →
    (∀ U ∈ typePartsFields fs, LosslessPart U ∧ SymmetricPart U) →
    (vs ws : FieldCarrier fs) → FieldsReturned env fs vs ws → ws = vs
  | [], _, _, _, _, _, _ => rfl
  | .mk attrs name T :: fs, hs, hy, hT, (v, vs), (w, ws), h => by
    have h0 : ¬ SkippedDe attrs := hs _ List.mem_cons_self
    have h1 : ¬ Skipped attrs := fun hk => h0 ((hy _ List.mem_cons_self).1.mp hk)
    rw [FieldsReturned, if_neg h0] at h
    rw [returned_eq env T (fun U hU => hT U (by simp [typePartsFields, h1, hU])) v w h.1,
      fieldsReturned_eq env fs (fun f hf => hs f (by simp [hf])) (fun f hf => hy f (by simp [hf]))
        (fun U hU => hT U (by simp [typePartsFields, hU])) vs ws h.2]
theorem variantReturned_eq (env : Env) : (vs : List RVariant) →
    (∀ v ∈ vs, ∀ f ∈ Spec.variantFields v, ¬ SkippedDe (fieldAttrs f)) →
    (∀ v ∈ vs, SymmetricFields (Spec.variantFields v)) →
    (∀ U ∈ typePartsVariants vs, LosslessPart U ∧ SymmetricPart U) →
    (v w : VariantsCarrier vs) → VariantReturned env vs v w → w = v
  | .mk _ _ (.named fs) :: vs, hs, hy, hT, .inl v, .inl w, h => by
    rw [VariantReturned] at h
    rw [fieldsReturned_eq env fs (hs _ List.mem_cons_self) (hy _ List.mem_cons_self)
      (fun U hU => hT U (by simp [typePartsVariants, hU])) v w h]
  | .mk _ _ (.unnamed fs) :: vs, hs, hy, hT, .inl v, .inl w, h => by
    rw [VariantReturned] at h
    rw [fieldsReturned_eq env fs (hs _ List.mem_cons_self) (hy _ List.mem_cons_self)
      (fun U hU => hT U (by simp [typePartsVariants, hU])) v w h]
  | .mk _ _ .unit :: vs, _, _, _, .inl _, .inl _, _ => rfl
  | .mk _ _ fields :: vs, hs, hy, hT, .inr v, .inr w, h => by
    have h' : VariantReturned env vs v w := by
      cases fields <;> (rw [VariantReturned] at h; exact h)
    rw [variantReturned_eq env vs (fun v hv => hs v (by simp [hv])) (fun v hv => hy v (by simp [hv]))
      (fun U hU => hT U (by cases fields <;> simp [typePartsVariants, hU])) v w h']
  | .mk _ _ fields :: vs, _, _, _, .inl v, .inr w, h => by
    cases fields <;> (rw [VariantReturned] at h; exact h.elim)
  | .mk _ _ fields :: vs, _, _, _, .inr v, .inl w, h => by
    cases fields <;> (rw [VariantReturned] at h; exact h.elim)
end

/-! ## Fields skipped in one direction only -/

/-- The bytes of fields followed by one that is not serialized but read. -/
theorem missing_last (t : Target) (mode : BuildMode) (env : Env) (ho : FairOrder env)
    (hm : 4096 ≤ t.memLimit) (attrs : List Attr) (name : String) (T : RTy) (hs : Skipped attrs)
    (hd : ¬ SkippedDe attrs) : (fs : List RField) → SymmetricFields fs → DefaultedFields env fs →
    (∀ U ∈ typePartsFields fs, TypeOk env U) → (vs : FieldCarrier (fs ++ [.mk attrs name T])) →
    (∀ p ∈ valuePartsFields (fs ++ [.mk attrs name T]) vs, ValueOk t mode p) →
    ∃ bs, (serFields mode (fs ++ [.mk attrs name T]) vs).exec = (bs, .ok ()) ∧
      ∀ fin rest, ∃ f : Carrier T → FieldCarrier (fs ++ [.mk attrs name T]),
        (∀ a, lastField fs (f a) = a ∧
          FieldsReturned env fs (initFields fs vs) (initFields fs (f a))) ∧
        Prog.exec t fin (deFields t mode env (fs ++ [.mk attrs name T])) (bs ++ rest) =
          Prog.next (Prog.exec t fin (deTy t mode env T) rest) fun a r => .ok (f a, r)
  | [], _, _, _, (v, ()), _ => by
    refine ⟨[], ?_, fun fin rest => ⟨fun a => (a, ()), fun a => ⟨rfl, trivial⟩, ?_⟩⟩
    · show (serFields mode [.mk attrs name T] (v, ())).exec = _
      rw [serFields, if_pos ((serdeSkips_iff attrs).mpr hs), serFields]; rfl
    · show Prog.exec t fin (deFields t mode env [.mk attrs name T]) _ = _
      rw [deFields, if_neg (by rw [deSkips_iff]; exact hd), Prog.bind_eq, Prog.exec_bind,
        List.nil_append]
      rfl
  | .mk as n U :: fs, hy, hdf, hT, (v, vs), hv => by
    obtain ⟨bs', hb, hr⟩ := missing_last t mode env ho hm attrs name T hs hd fs
      (fun f hf => hy f (by simp [hf])) (fun f hf => hdf f (by simp [hf]))
      (fun U hU => hT U (by simp [typePartsFields, hU])) vs
      (fun p hp => hv p (by
        show p ∈ valuePartsFields (.mk as n U :: (fs ++ [.mk attrs name T])) (v, vs)
        simp [valuePartsFields, hp]))
    have hsym : Skipped as ↔ SkippedDe as := (hy _ List.mem_cons_self).1
    by_cases hk : Skipped as
    · have hk' := hsym.mp hk
      have hex : ∃ w, env.dflt as U = some w := hdf _ List.mem_cons_self hk'
      obtain ⟨w, hw⟩ := hex
      refine ⟨bs', ?_, fun fin rest => ?_⟩
      · show (serFields mode (.mk as n U :: (fs ++ [.mk attrs name T])) (v, vs)).exec = _
        rw [serFields, if_pos ((serdeSkips_iff as).mpr hk), hb]
      · obtain ⟨f, hfa, hf⟩ := hr fin rest
        refine ⟨fun a => (w, f a), fun a => ⟨(hfa a).1, by rw [if_pos hk']; exact hw, (hfa a).2⟩, ?_⟩
        show Prog.exec t fin (deFields t mode env (.mk as n U :: (fs ++ [.mk attrs name T]))) _ = _
        rw [deFields, if_pos ((deSkips_iff as).mpr hk')]
        simp only [hw]
        rw [Prog.bind_eq, Prog.exec_bind, hf]
        cases Prog.exec t fin (deTy t mode env T) rest <;> rfl
    · have hk' : ¬ SkippedDe as := fun h => hk (hsym.mpr h)
      obtain ⟨w, bs, hret, hrw⟩ := reads t mode env ho hm U
        (fun V hV => hT V (by simp [typePartsFields, hk, hV])) v
        (fun p hp => hv p (by
          show p ∈ valuePartsFields (.mk as n U :: (fs ++ [.mk attrs name T])) (v, vs)
          simp [valuePartsFields, hk, hp]))
      refine ⟨bs ++ bs', ?_, fun fin rest => ?_⟩
      · show (serFields mode (.mk as n U :: (fs ++ [.mk attrs name T])) (v, vs)).exec = _
        rw [serFields, if_neg (by rw [serdeSkips_iff]; exact hk), WProg.exec_andThen_ok hrw.bytes, hb]
      · obtain ⟨f, hfa, hf⟩ := hr fin rest
        refine ⟨fun a => (w, f a), fun a => ⟨(hfa a).1, by rw [if_neg hk']; exact hret, (hfa a).2⟩, ?_⟩
        show Prog.exec t fin (deFields t mode env (.mk as n U :: (fs ++ [.mk attrs name T]))) _ = _
        rw [deFields, if_neg (by rw [deSkips_iff]; exact hk'), Prog.bind_eq, Prog.exec_bind,
          List.append_assoc, hrw.decodes, Prog.next_ok, Prog.bind_eq, Prog.exec_bind, hf]
        cases Prog.exec t fin (deTy t mode env T) rest <;> rfl

/-- The bytes of fields followed by one that is serialized but not read. -/
theorem unread_last (t : Target) (mode : BuildMode) (env : Env) (ho : FairOrder env)
    (hm : 4096 ≤ t.memLimit) (attrs : List Attr) (name : String) (T : RTy) (hs : ¬ Skipped attrs)
    (hd : SkippedDe attrs) (d : Carrier T) (hdd : env.dflt attrs T = some d) : (fs : List RField) →
    SymmetricFields fs → DefaultedFields env fs →
    (∀ U ∈ typePartsFields (fs ++ [.mk attrs name T]), TypeOk env U) →
    (vs : FieldCarrier (fs ++ [.mk attrs name T])) →
    (∀ p ∈ valuePartsFields (fs ++ [.mk attrs name T]) vs, ValueOk t mode p) →
    ∃ bs last,
      (serFields mode (fs ++ [.mk attrs name T]) vs).exec = (bs ++ last, .ok ()) ∧
      (ser mode T (lastField fs vs)).exec = (last, .ok ()) ∧
      ∀ fin rest, ∃ ws, lastField fs ws = d ∧
        FieldsReturned env fs (initFields fs vs) (initFields fs ws) ∧
        Prog.exec t fin (deFields t mode env (fs ++ [.mk attrs name T]))
        (bs ++ (last ++ rest)) = .ok (ws, last ++ rest)
  | [], _, _, hT, (v, ()), hv => by
    obtain ⟨w, bs, -, hrw⟩ := reads t mode env ho hm T
      (fun V hV => hT V (by simp [typePartsFields, hs, hV])) v
      (fun p hp => hv p (by
        show p ∈ valuePartsFields [.mk attrs name T] (v, ())
        simp [valuePartsFields, hs, hp]))
    refine ⟨[], bs, ?_, hrw.bytes, fun fin rest => ⟨(d, ()), rfl, trivial, ?_⟩⟩
    · show (serFields mode [.mk attrs name T] (v, ())).exec = _
      rw [serFields, if_neg (by rw [serdeSkips_iff]; exact hs), WProg.exec_andThen_ok hrw.bytes,
        serFields]
      simp [WProg.exec, WProg.skip]
    · show Prog.exec t fin (deFields t mode env [.mk attrs name T]) _ = _
      rw [deFields, if_pos ((deSkips_iff attrs).mpr hd)]
      simp only [hdd]
      rw [deFields]
      rfl
  | .mk as n U :: fs, hy, hdf, hT, (v, vs), hv => by
    obtain ⟨bs', last, hb, hl, hr⟩ := unread_last t mode env ho hm attrs name T hs hd d hdd fs
      (fun f hf => hy f (by simp [hf])) (fun f hf => hdf f (by simp [hf]))
      (fun V hV => hT V (by
        show V ∈ typePartsFields (.mk as n U :: (fs ++ [.mk attrs name T]))
        simp [typePartsFields, hV])) vs
      (fun p hp => hv p (by
        show p ∈ valuePartsFields (.mk as n U :: (fs ++ [.mk attrs name T])) (v, vs)
        simp [valuePartsFields, hp]))
    have hsym : Skipped as ↔ SkippedDe as := (hy _ List.mem_cons_self).1
    by_cases hk : Skipped as
    · have hk' := hsym.mp hk
      have hex : ∃ w, env.dflt as U = some w := hdf _ List.mem_cons_self hk'
      obtain ⟨w, hw⟩ := hex
      refine ⟨bs', last, ?_, hl, fun fin rest => ?_⟩
      · show (serFields mode (.mk as n U :: (fs ++ [.mk attrs name T])) (v, vs)).exec = _
        rw [serFields, if_pos ((serdeSkips_iff as).mpr hk), hb]
      · obtain ⟨ws, hwl, hwi, hf⟩ := hr fin rest
        refine ⟨(w, ws), hwl, ⟨by rw [if_pos hk']; exact hw, hwi⟩, ?_⟩
        show Prog.exec t fin (deFields t mode env (.mk as n U :: (fs ++ [.mk attrs name T]))) _ = _
        rw [deFields, if_pos ((deSkips_iff as).mpr hk')]
        simp only [hw]
        exact De.exec_wrap t fin _ (Prod.mk w) _ _ _ hf
    · have hk' : ¬ SkippedDe as := fun h => hk (hsym.mpr h)
      obtain ⟨w, bs, hret, hrw⟩ := reads t mode env ho hm U
        (fun V hV => hT V (by
          show V ∈ typePartsFields (.mk as n U :: (fs ++ [.mk attrs name T]))
          simp [typePartsFields, hk, hV])) v
        (fun p hp => hv p (by
          show p ∈ valuePartsFields (.mk as n U :: (fs ++ [.mk attrs name T])) (v, vs)
          simp [valuePartsFields, hk, hp]))
      refine ⟨bs ++ bs', last, ?_, hl, fun fin rest => ?_⟩
      · show (serFields mode (.mk as n U :: (fs ++ [.mk attrs name T])) (v, vs)).exec = _
        rw [serFields, if_neg (by rw [serdeSkips_iff]; exact hk), WProg.exec_andThen_ok hrw.bytes, hb]
        simp
      · obtain ⟨ws, hwl, hwi, hf⟩ := hr fin rest
        refine ⟨(w, ws), hwl, ⟨by rw [if_neg hk']; exact hret, hwi⟩, ?_⟩
        show Prog.exec t fin (deFields t mode env (.mk as n U :: (fs ++ [.mk attrs name T]))) _ = _
        rw [deFields, if_neg (by rw [deSkips_iff]; exact hk'), Prog.bind_eq, Prog.exec_bind,
          List.append_assoc, hrw.decodes, Prog.next_ok]
        exact De.exec_wrap t fin _ (Prod.mk w) _ _ _ hf

/-! ## Which variant comes back -/

theorem readCount_cons (v : RVariant) (vs : List RVariant) :
    readCount (v :: vs) = (if SkippedDe (variantAttrs v) then 0 else 1) + readCount vs := by
  by_cases h : SkippedDe (variantAttrs v)
  · simp [readCount, h]
  · simp [readCount, h, Nat.add_comm]

theorem readCount_le (vs : List RVariant) : readCount vs ≤ vs.length := List.length_filter_le _ _

theorem deVariant_skip (t : Target) (mode : BuildMode) (env : Env) {idx : Nat} (n : Nat) {attrs : List Attr}
    (h : SkippedDe attrs) (vn : String) (fields : RFields) (vs : List RVariant) :
    deVariant t mode env idx n (.mk attrs vn fields :: vs) =
      (do let v ← deVariant t mode env idx n vs; pure (.inr v)) := by
  cases n <;> rw [deVariant, if_pos ((deSkips_iff attrs).mpr h)]

theorem deVariant_zero (t : Target) (mode : BuildMode) (env : Env) {idx : Nat} {attrs : List Attr}
    (h : ¬ SkippedDe attrs) (vn : String) (fields : RFields) (vs : List RVariant) :
    deVariant t mode env idx 0 (.mk attrs vn fields :: vs) =
      (do let v ← dePayload t mode env fields; pure (.inl v)) := by
  rw [deVariant, if_neg (by rw [deSkips_iff]; exact h)]

theorem deVariant_succ (t : Target) (mode : BuildMode) (env : Env) {idx : Nat} (n : Nat) {attrs : List Attr}
    (h : ¬ SkippedDe attrs) (vn : String) (fields : RFields) (vs : List RVariant) :
    deVariant t mode env idx (n + 1) (.mk attrs vn fields :: vs) =
      (do let v ← deVariant t mode env idx n vs; pure (.inr v)) := by
  rw [deVariant, if_neg (by rw [deSkips_iff]; exact h)]

theorem deVariant_position (t : Target) (mode : BuildMode) (env : Env) {idx : Nat} (fin : Ending) :
    (vs : List RVariant) → (n : Nat) → (bs : List UInt8) → (w : VariantsCarrier vs) →
    (rest : List UInt8) → Prog.exec t fin (deVariant t mode env idx n vs) bs = .ok (w, rest) →
    readCount (vs.take (variantPosition vs w)) = n ∧
      ∃ u, vs[variantPosition vs w]? = some u ∧ ¬ SkippedDe (variantAttrs u)
  | [], _, _, w, _, _ => nomatch w
  | .mk attrs vn fields :: vs, n, bs, w, rest, h => by
    by_cases hk : SkippedDe attrs
    · rw [deVariant_skip _ _ _ _ hk, Prog.bind_eq, Prog.exec_bind] at h
      cases hx : Prog.exec t fin (deVariant t mode env idx n vs) bs with
      | err e => rw [hx] at h; cases h
      | panic p => rw [hx] at h; cases h
      | ok a =>
        obtain ⟨u, r⟩ := a
        rw [hx] at h
        cases h
        obtain ⟨h1, h2⟩ := deVariant_position t mode env fin vs n bs u _ hx
        rw [variantPosition]
        refine ⟨?_, by simpa using h2⟩
        rw [List.take_succ_cons, readCount_cons, if_pos (show SkippedDe (variantAttrs (.mk attrs vn fields)) from hk), h1, Nat.zero_add]
    · cases n with
      | zero =>
        rw [deVariant_zero _ _ _ hk, Prog.bind_eq, Prog.exec_bind] at h
        cases hx : Prog.exec t fin (dePayload t mode env fields) bs with
        | err e => rw [hx] at h; cases h
        | panic p => rw [hx] at h; cases h
        | ok a =>
          rw [hx] at h
          cases h
          rw [variantPosition]
          exact ⟨rfl, _, rfl, hk⟩
      | succ n =>
        rw [deVariant_succ _ _ _ _ hk, Prog.bind_eq, Prog.exec_bind] at h
        cases hx : Prog.exec t fin (deVariant t mode env idx n vs) bs with
        | err e => rw [hx] at h; cases h
        | panic p => rw [hx] at h; cases h
        | ok a =>
          obtain ⟨u, r⟩ := a
          rw [hx] at h
          cases h
          obtain ⟨h1, h2⟩ := deVariant_position t mode env fin vs n bs u _ hx
          rw [variantPosition]
          refine ⟨?_, by simpa using h2⟩
          rw [List.take_succ_cons, readCount_cons, if_neg (show ¬ SkippedDe (variantAttrs (.mk attrs vn fields)) from hk), h1, Nat.add_comm]

/-- Too large an index is an error, whatever follows. -/
theorem deVariant_beyond (t : Target) (mode : BuildMode) (env : Env) {idx : Nat} (fin : Ending) :
    (vs : List RVariant) → (n : Nat) → (bs : List UInt8) → readCount vs ≤ n →
    Prog.exec t fin (deVariant t mode env idx n vs) bs =
      .err (unknownVariant idx (idx - (n - readCount vs)))
  | [], _, _, _ => by rw [deVariant]; rfl
  | .mk attrs vn fields :: vs, n, bs, h => by
    rw [readCount_cons] at h
    by_cases hk : SkippedDe attrs
    · rw [if_pos (show SkippedDe (variantAttrs (.mk attrs vn fields)) from hk), Nat.zero_add] at h
      rw [deVariant_skip _ _ _ _ hk, Prog.bind_eq, Prog.exec_bind,
        deVariant_beyond t mode env fin vs n bs h, readCount_cons,
        if_pos (show SkippedDe (variantAttrs (.mk attrs vn fields)) from hk), Nat.zero_add]
      rfl
    · rw [if_neg (show ¬ SkippedDe (variantAttrs (.mk attrs vn fields)) from hk)] at h
      cases n with
      | zero => omega
      | succ n =>
        rw [deVariant_succ _ _ _ _ hk, Prog.bind_eq, Prog.exec_bind,
          deVariant_beyond t mode env fin vs n bs (by omega), readCount_cons,
          if_neg (show ¬ SkippedDe (variantAttrs (.mk attrs vn fields)) from hk),
          show n + 1 - (1 + readCount vs) = n - readCount vs by omega]
        rfl

theorem readCount_lt {vs : List RVariant} (h : ∃ u ∈ vs, SkippedDe (variantAttrs u)) :
    readCount vs < vs.length := by
  obtain ⟨u, hu, hs⟩ := h
  refine Nat.lt_of_le_of_ne (readCount_le vs) fun he => ?_
  have := List.length_filter_eq_length_iff.mp he u hu
  simp [hs] at this

/-! ## Parts of values have the types of parts -/

mutual
theorem part_type : (T : RTy) → (v : Carrier T) → (p : Σ T, Carrier T) → p ∈ valueParts T v →
    p.1 ∈ typeParts T
  | .option T, none, p, h => by
    simp only [valueParts, List.mem_singleton] at h; subst h; simp [typeParts]
  | .option T, some v, p, h => by
    rw [valueParts] at h
    rcases List.mem_cons.mp h with rfl | h
    · exact self_mem_typeParts _
    · simp [typeParts, part_type T v p h]
  | .vec T, vs, p, h => by
    rw [valueParts] at h
    rcases List.mem_cons.mp h with rfl | h
    · exact self_mem_typeParts _
    · obtain ⟨l, hl, hp⟩ := List.mem_flatten.mp h
      obtain ⟨v, hv, rfl⟩ := List.mem_map.mp hl
      simp [typeParts, part_type T v p hp]
  | .btreeMap T, vs, p, h => by
    rw [valueParts] at h
    rcases List.mem_cons.mp h with rfl | h
    · exact self_mem_typeParts _
    · obtain ⟨l, hl, hp⟩ := List.mem_flatten.mp h
      obtain ⟨v, hv, rfl⟩ := List.mem_map.mp hl
      simp [typeParts, part_type T v.2 p hp]
  | .hashMap T, vs, p, h => by
    rw [valueParts] at h
    rcases List.mem_cons.mp h with rfl | h
    · exact self_mem_typeParts _
    · obtain ⟨l, hl, hp⟩ := List.mem_flatten.mp h
      obtain ⟨v, hv, rfl⟩ := List.mem_map.mp hl
      simp [typeParts, part_type T v.2 p hp]
  | .tuple Ts, vs, p, h => by
    rw [valueParts] at h
    rcases List.mem_cons.mp h with rfl | h
    · exact self_mem_typeParts _
    · simp [typeParts, part_types Ts vs p h]
  | .struct name (.named fs), vs, p, h => by
    rw [valueParts] at h
    rcases List.mem_cons.mp h with rfl | h
    · exact self_mem_typeParts _
    · simp [typeParts, part_fields fs vs p h]
  | .struct name (.unnamed fs), vs, p, h => by
    rw [valueParts] at h
    rcases List.mem_cons.mp h with rfl | h
    · exact self_mem_typeParts _
    · simp [typeParts, part_fields fs vs p h]
  | .enum name vs, v, p, h => by
    rw [valueParts] at h
    rcases List.mem_cons.mp h with rfl | h
    · exact self_mem_typeParts _
    · simp [typeParts, part_variant vs v p h]
  | .struct name .unit, v, p, h => by
    simp only [valueParts, List.mem_singleton] at h; subst h; simp [typeParts]
  | .unit, v, p, h => by simp only [valueParts, List.mem_singleton] at h; subst h; simp [typeParts]
  | .bool, v, p, h => by simp only [valueParts, List.mem_singleton] at h; subst h; simp [typeParts]
  | .u8, v, p, h => by simp only [valueParts, List.mem_singleton] at h; subst h; simp [typeParts]
  | .u16, v, p, h => by simp only [valueParts, List.mem_singleton] at h; subst h; simp [typeParts]
  | .u32, v, p, h => by simp only [valueParts, List.mem_singleton] at h; subst h; simp [typeParts]
  | .u64, v, p, h => by simp only [valueParts, List.mem_singleton] at h; subst h; simp [typeParts]
  | .i8, v, p, h => by simp only [valueParts, List.mem_singleton] at h; subst h; simp [typeParts]
  | .i16, v, p, h => by simp only [valueParts, List.mem_singleton] at h; subst h; simp [typeParts]
  | .i32, v, p, h => by simp only [valueParts, List.mem_singleton] at h; subst h; simp [typeParts]
  | .i64, v, p, h => by simp only [valueParts, List.mem_singleton] at h; subst h; simp [typeParts]
  | .f32, v, p, h => by simp only [valueParts, List.mem_singleton] at h; subst h; simp [typeParts]
  | .f64, v, p, h => by simp only [valueParts, List.mem_singleton] at h; subst h; simp [typeParts]
  | .bigUint, v, p, h => by simp only [valueParts, List.mem_singleton] at h; subst h; simp [typeParts]
  | .numBigUint, v, p, h => by simp only [valueParts, List.mem_singleton] at h; subst h; simp [typeParts]
  | .bigInt, v, p, h => by simp only [valueParts, List.mem_singleton] at h; subst h; simp [typeParts]
  | .numBigInt, v, p, h => by simp only [valueParts, List.mem_singleton] at h; subst h; simp [typeParts]
  | .bigDecimal, v, p, h => by simp only [valueParts, List.mem_singleton] at h; subst h; simp [typeParts]
  | .numBigDecimal, v, p, h => by simp only [valueParts, List.mem_singleton] at h; subst h; simp [typeParts]
  | .str, v, p, h => by simp only [valueParts, List.mem_singleton] at h; subst h; simp [typeParts]
  | .string, v, p, h => by simp only [valueParts, List.mem_singleton] at h; subst h; simp [typeParts]
  | .bytes, v, p, h => by simp only [valueParts, List.mem_singleton] at h; subst h; simp [typeParts]
  | .byteBuf, v, p, h => by simp only [valueParts, List.mem_singleton] at h; subst h; simp [typeParts]
  | .date, v, p, h => by simp only [valueParts, List.mem_singleton] at h; subst h; simp [typeParts]
  | .timeDate, v, p, h => by simp only [valueParts, List.mem_singleton] at h; subst h; simp [typeParts]
  | .dateTime, v, p, h => by simp only [valueParts, List.mem_singleton] at h; subst h; simp [typeParts]
  | .offsetDateTime, v, p, h => by simp only [valueParts, List.mem_singleton] at h; subst h; simp [typeParts]
  | .union _, v, p, h => nomatch v
  | .foreign, v, p, h => by simp only [valueParts, List.mem_singleton] at h; subst h; simp [typeParts]
theorem part_types : (Ts : List RTy) → (vs : TupleCarrier Ts) → (p : Σ T, Carrier T) →
    p ∈ valuePartsAll Ts vs → p.1 ∈ typePartsAll Ts
  | [], _, p, h => by simp [valuePartsAll] at h
  | T :: Ts, (v, vs), p, h => by
    rw [valuePartsAll] at h
    rw [typePartsAll, List.mem_append]
    rcases List.mem_append.mp h with h | h
    · exact .inl (part_type T v p h)
    · exact .inr (part_types Ts vs p h)
theorem part_fields : (fs : List RField) → (vs : FieldCarrier fs) → (p : Σ T, Carrier T) →
    p ∈ valuePartsFields fs vs → p.1 ∈ typePartsFields fs
  | [], _, p, h => by simp [valuePartsFields] at h
  | .mk attrs _ T :: fs, (v, vs), p, h => by
    rw [valuePartsFields] at h
    rw [typePartsFields, List.mem_append]
    rcases List.mem_append.mp h with h | h
    · by_cases hs : Skipped attrs
      · rw [if_pos hs] at h; cases h
      · rw [if_neg hs] at h ⊢
        exact .inl (part_type T v p h)
    · exact .inr (part_fields fs vs p h)
theorem part_variant : (vs : List RVariant) → (v : VariantsCarrier vs) → (p : Σ T, Carrier T) →
    p ∈ valuePartsVariant vs v → p.1 ∈ typePartsVariants vs
  | .mk _ _ (.named fs) :: vs, .inl v, p, h => by
    rw [valuePartsVariant] at h
    rw [typePartsVariants, List.mem_append]
    exact .inl (part_fields fs v p h)
  | .mk _ _ (.unnamed fs) :: vs, .inl v, p, h => by
    rw [valuePartsVariant] at h
    rw [typePartsVariants, List.mem_append]
    exact .inl (part_fields fs v p h)
  | .mk _ _ .unit :: vs, .inl v, p, h => by simp [valuePartsVariant] at h
  | .mk _ _ fields :: vs, .inr v, p, h => by
    have h' : p ∈ valuePartsVariant vs v := by
      cases fields <;> simpa [valuePartsVariant] using h
    have := part_variant vs v p h'
    cases fields <;> simp [typePartsVariants, this]
end

end Derive
end Dlhn
