import Verif.Proof.Derive
import Verif.Proof.BodyDe
import Verif.Proof.BigNum
import Verif.Proof.Date
/-! # Typed values and dynamic bodies -/
namespace Dlhn

open Spec

/-! ## The `format` modules write what the records write -/

theorem Format.serBigUint_eq (n : Nat) : Format.serBigUint n = (BigUint.ofNum n).ser := by
  rw [Format.serBigUint, BigUint.ser, BigUint.ofNum]
  split
  · rw [← Ser.serVecU8_nil]
  · rfl

theorem Format.serBigInt_eq (x : Int) : Format.serBigInt x = (BigInt.ofNum x).ser := by
  rw [Format.serBigInt, BigInt.ser, BigInt.ofNum]
  split
  · rw [← Ser.serVecU8_nil]
  · rfl

theorem Num.signedValue_nil : signedValue [] = 0 := by rfl

theorem Num.toSignedBytesLe_ne_nil {x : Int} (h : x ≠ 0) : Num.toSignedBytesLe x ≠ [] := by
  intro hn
  have := (Num.shortest_signed h).1
  rw [hn, Num.signedValue_nil] at this
  exact h this.symm

theorem BigUint.shortest (n : Nat) : ShortestUnsigned n (BigUint.ofNum n).bytes := by
  rw [BigUint.ofNum_eq]
  exact Num.shortest_digits n

theorem BigInt.shortest (x : Int) : ShortestSigned x (BigInt.ofNum x).bytes := by
  rw [BigInt.ofNum]
  split
  · subst x
    exact ⟨Num.signedValue_nil, fun _ _ => Nat.zero_le _⟩
  · exact Num.shortest_signed ‹_›

theorem Format.serBigDecimal_eq (mode : BuildMode) (v : Num.Decimal) (hf : ScaleFits v)
    (b : BigDecimal) (h : BigDecimal.ofNum mode v = .ok b) : Format.serBigDecimal mode v = b.ser := by
  rw [Format.serBigDecimal, BigDecimal.ser]
  rcases BigDecimal.ofNum_spec mode v hf with ⟨hz, h1⟩ | ⟨hz, n, hn, hm, -, -, h1, -⟩
  · rw [h1] at h
    cases h
    rw [if_pos hz, if_pos rfl]
  · rw [h1] at h
    cases h
    rw [if_neg hz, if_neg (Num.toSignedBytesLe_ne_nil (Num.ne_zero_of_mod hm)), hn]

/-- Fewer digits of the same sign take no more bytes. -/
theorem Num.length_mono {x y : Int} (hx : x ≠ 0) (hy : y ≠ 0) (hs : x < 0 ↔ y < 0)
    (h : x.natAbs ≤ y.natAbs) : (toSignedBytesLe x).length ≤ (toSignedBytesLe y).length := by
  obtain ⟨bs, -, -, -, hmin, heq⟩ := magnitude hx
  obtain ⟨cs, hne, -, hfit, -, heq'⟩ := magnitude hy
  have hl : (toSignedBytesLe x).length = bs.length := by
    rw [heq]; split
    · exact length_twosComplement _ _
    · rfl
  have hl' : (toSignedBytesLe y).length = cs.length := by
    rw [heq']; split
    · exact length_twosComplement _ _
    · rfl
  have hpos : 0 < cs.length := List.length_pos_iff.mpr hne
  have := hmin (cs.length - 1) (by
    by_cases h0 : x < 0
    · rw [if_pos h0]
      rw [if_pos (hs.mp h0)] at hfit
      omega
    · rw [if_neg h0]
      rw [if_neg (fun hc => h0 (hs.mpr hc))] at hfit
      omega)
  omega

/-- Converting a decimal does not lengthen it. -/
theorem BigDecimal.length_ofNum (mode : BuildMode) (v : Num.Decimal) (hf : ScaleFits v)
    (b : BigDecimal) (h : BigDecimal.ofNum mode v = .ok b) (bs : List UInt8)
    (hb : ShortestSigned v.intVal bs) : b.signedBytes.length ≤ bs.length := by
  by_cases hz : v.intVal = 0
  · rw [BigDecimal.ofNum, if_pos hz] at h
    cases h
    exact Nat.zero_le _
  · obtain ⟨n, k, hn, hi, -, hm⟩ := Num.normalized_spec mode v hz hf
    rw [BigDecimal.ofNum, if_neg hz, hn] at h
    cases h
    have hpos : (0 : Int) < 10 ^ k := Int.pow_pos (by decide)
    refine Nat.le_trans (Num.length_mono (Num.ne_zero_of_mod hm) hz ?_ ?_)
      ((Num.shortest_signed hz).2 bs hb.1)
    · rw [← hi]
      constructor
      · intro h0
        exact Int.mul_neg_of_neg_of_pos h0 hpos
      · intro h0
        apply Decidable.byContradiction
        intro hc
        have := Int.mul_nonneg (Int.not_lt.mp hc) (Int.le_of_lt hpos)
        omega
    · rw [← hi, Int.natAbs_mul]
      exact Nat.le_mul_of_pos_right _ (by have := Int.natAbs_pos.mpr (Int.ne_of_gt hpos); exact this)

namespace Derive

/-! ## Parts -/

theorem self_mem_typeParts (T : RTy) : T ∈ typeParts T := by
  cases T with
  | struct name fields => cases fields <;> simp [typeParts]
  | _ => simp [typeParts]

theorem self_mem_valueParts (T : RTy) (v : Carrier T) : ⟨T, v⟩ ∈ valueParts T v := by
  cases T with
  | struct name fields => cases fields <;> simp [valueParts]
  | option T => cases v <;> simp [valueParts]
  | _ => simp [valueParts]

/-- What is asked of one part of a value. -/
structure PartOk (t : Target) (mode : BuildMode) (size : Nat) (N D : Prop) (p : Σ T, Carrier T) :
    Prop where
  real : RealPart t p
  memory : ∀ (U : RTy) (vs : List (Carrier U)), p = ⟨.vec U, vs⟩ →
    t.allocate (vs.length * size) = none
  date : mode = .debug → ∀ d : Date, p = ⟨.date, d⟩ → DateFits d
  day : N → ∀ d : Date, p = ⟨.date, d⟩ → ExistingDay d.year.toInt d.ordinal.toNat
  second : N → ∀ d : DateTime, p = ⟨.dateTime, d⟩ → InRange d
  utc : N → ∀ d : Time.OffsetDateTime, p = ⟨.offsetDateTime, d⟩ → UtcInRange d
  digits : D → ∀ v : BigDecimal, p = ⟨.bigDecimal, v⟩ → v.signedBytes ≠ [] →
    signedValue v.signedBytes ≠ 0

/-- What is asked of a body. -/
structure BodyOk (t : Target) (mode : BuildMode) (N D : Prop) (b : Body) : Prop where
  exist : Exists t b
  clean : CleanDecimals b
  dates : DatesFit mode b
  times : N → TimesExist b
  digits : D → DigitsDenote b

section
variable {N D : Prop}

theorem BodyOk.mono {t : Target} {mode : BuildMode} {b c : Body} (hb : BodyOk t mode N D b)
    (h : ∀ x ∈ parts c, x ∈ parts b) : BodyOk t mode N D c where
  exist := fun x hx => hb.exist x (h x hx)
  clean := fun v hv => hb.clean v (h _ hv)
  dates := fun e d hd => hb.dates e d (h _ hd)
  times := fun hN => ⟨fun d hd => (hb.times hN).1 d (h _ hd), fun d hd => (hb.times hN).2 d (h _ hd)⟩
  digits := fun hD v hv => hb.digits hD v (h _ hv)

theorem BodyOk.of_parts {t : Target} {mode : BuildMode} {b : Body}
    (h : ∀ c ∈ parts b, c = b ∨ ∃ d, c ∈ parts d ∧ BodyOk t mode N D d)
    (h1 : LengthsFit t b) (h2 : ∀ es, b = .map es → Ascending es)
    (h3 : ∀ v, b = .bigDecimal v → v.signedBytes = [] → v.scale = 0)
    (h4 : ∀ d, b = .date d → mode = .debug → DateFits d)
    (h5 : ∀ d, b = .date d → N → ExistingDay d.year.toInt d.ordinal.toNat)
    (h6 : ∀ d, b = .dateTime d → N → InRange d)
    (h7 : ∀ v, b = .bigDecimal v → D → v.signedBytes ≠ [] → signedValue v.signedBytes ≠ 0) :
    BodyOk t mode N D b where
  exist := fun x hx => by
    rcases h x hx with rfl | ⟨d, hd, hg⟩
    · exact ⟨h1, h2⟩
    · exact hg.exist x hd
  clean := fun v hv => by
    rcases h _ hv with he | ⟨d, hd, hg⟩
    · exact h3 v he.symm
    · exact hg.clean v hd
  dates := fun e d hd => by
    rcases h _ hd with he | ⟨d', hd', hg⟩
    · exact h4 d he.symm e
    · exact hg.dates e d hd'
  times := fun hN => ⟨fun d hd => by
    rcases h _ hd with he | ⟨d', hd', hg⟩
    · exact h5 d he.symm hN
    · exact (hg.times hN).1 d hd', fun d hd => by
    rcases h _ hd with he | ⟨d', hd', hg⟩
    · exact h6 d he.symm hN
    · exact (hg.times hN).2 d hd'⟩
  digits := fun hD v hv => by
    rcases h _ hv with he | ⟨d, hd, hg⟩
    · exact h7 v he.symm hD
    · exact hg.digits hD v hd

mutual
/-- The bytes encode the body, with the entries of maps in any order. -/
def Spells : Body → List UInt8 → Prop
  | .some b, bs => ∃ bs', bs = 1 :: bs' ∧ Spells b bs'
  | .array cs, bs => ∃ bs', bs = varint 64 cs.length ++ bs' ∧ SpellsAll cs bs'
  | .tuple cs, bs => SpellsAll cs bs
  | .map es, bs => ∃ ks ks', SpellsEntries es ks ∧ ks.Perm ks' ∧
      bs = varint 64 es.length ++ (ks'.map fun k => block (utf8 k.1) ++ k.2).flatten
  | .enum i b, bs => ∃ bs', bs = varint 32 i.toNat ++ bs' ∧ Spells b bs'
  | b, bs => bs = bodyWire b
/-- One after the other. -/
def SpellsAll : List Body → List UInt8 → Prop
  | [], bs => bs = []
  | c :: cs, bs => ∃ x y, bs = x ++ y ∧ Spells c x ∧ SpellsAll cs y
/-- Entry by entry. -/
def SpellsEntries : List (String × Body) → List (String × List UInt8) → Prop
  | [], ks => ks = []
  | (k, c) :: es, ks => ∃ x ks', ks = (k, x) :: ks' ∧ Spells c x ∧ SpellsEntries es ks'
end

theorem spells_leaf {b : Body} (hb : parts b = [b])
    (h5 : ∀ bs, b ≠ .array bs ∧ b ≠ .tuple bs) (h2 : ∀ es, b ≠ .map es) :
    Spells b (bodyWire b) := by
  cases b with
  | some c =>
    rw [parts, List.cons.injEq] at hb
    have := Body.self_mem_parts c
    rw [hb.2] at this
    simp at this
  | enum i c =>
    rw [parts, List.cons.injEq] at hb
    have := Body.self_mem_parts c
    rw [hb.2] at this
    simp at this
  | array cs => exact absurd rfl (h5 cs).1
  | tuple cs => exact absurd rfl (h5 cs).2
  | map es => exact absurd rfl (h2 es)
  | _ => simp [Spells]

/-- Typed and dynamic views agree on a value, with body `b` and bytes `bs`. -/
structure Agrees (t : Target) (mode : BuildMode) (N D : Prop) (p : WProg SerErr) (q : Prog DeErr Body)
    (again : Prop) (b : Body) (bs : List UInt8) : Prop where
  bytes : p.exec = (bs, .ok ())
  decodes : ∀ fin rest, Prog.exec t fin q (bs ++ rest) = .ok (b, rest)
  again : again → (Body.ser mode b).exec = (bs, .ok ())
  spells : Spells b bs
  good : BodyOk t mode N D b

theorem good_some {t : Target} {mode : BuildMode} {b : Body} (h : BodyOk t mode N D b) :
    BodyOk t mode N D (.some b) :=
  BodyOk.of_parts (fun c hc => by
    simp only [parts, List.mem_cons] at hc
    exact hc.imp id fun hc => ⟨b, hc, h⟩) trivial (by simp) (by simp) (by simp) (by simp) (by simp) (by simp)

theorem good_unit {t : Target} {mode : BuildMode} : BodyOk t mode N D .unit :=
  BodyOk.of_parts (by simp [parts]) trivial (by simp) (by simp) (by simp) (by simp) (by simp) (by simp)

theorem good_enum {t : Target} {mode : BuildMode} {i : UInt32} {b : Body}
    (h : BodyOk t mode N D b) : BodyOk t mode N D (.enum i b) :=
  BodyOk.of_parts (fun c hc => by
    simp only [parts, List.mem_cons] at hc
    exact hc.imp id fun hc => ⟨b, hc, h⟩) trivial (by simp) (by simp) (by simp) (by simp) (by simp) (by simp)

theorem good_array {t : Target} {mode : BuildMode} {bs : List Body}
    (hl : bs.length < 2 ^ t.ptr.bits) (h : ∀ b ∈ bs, BodyOk t mode N D b) :
    BodyOk t mode N D (.array bs) :=
  BodyOk.of_parts (fun c hc => by
    simp only [parts, List.mem_cons, Body.mem_partsAll] at hc
    exact hc.imp id fun ⟨b, hb, hc⟩ => ⟨b, hc, h b hb⟩) hl (by simp) (by simp) (by simp)
    (by simp) (by simp) (by simp)

theorem good_tuple {t : Target} {mode : BuildMode} {bs : List Body}
    (h : ∀ b ∈ bs, BodyOk t mode N D b) : BodyOk t mode N D (.tuple bs) :=
  BodyOk.of_parts (fun c hc => by
    simp only [parts, List.mem_cons, Body.mem_partsAll] at hc
    exact hc.imp id fun ⟨b, hb, hc⟩ => ⟨b, hc, h b hb⟩) trivial (by simp) (by simp)
    (by simp) (by simp) (by simp) (by simp)

theorem good_map {t : Target} {mode : BuildMode} {es : List (String × Body)}
    (hl : es.length < 2 ^ t.ptr.bits) (hk : ∀ e ∈ es, (utf8 e.1).length < 2 ^ t.ptr.bits)
    (ha : Ascending es) (h : ∀ e ∈ es, BodyOk t mode N D e.2) :
    BodyOk t mode N D (.map es) :=
  BodyOk.of_parts (fun c hc => by
    simp only [parts, List.mem_cons, Body.mem_partsEntries] at hc
    exact hc.imp id fun ⟨e, he, hc⟩ => ⟨e.2, hc, h e he⟩) ⟨hl, hk⟩
    (fun _ h => by cases h; exact ha) (by simp) (by simp) (by simp) (by simp)
    (by simp)

theorem leaf {t : Target} {mode : BuildMode} {size : Nat} (hm : 4096 ≤ t.memLimit) {T : RTy}
    {v : Carrier T} {h : Header} (b : Body) (again : Prop)
    (hb : parts b = [b]) (hc : Conforms h b)
    (h1 : LengthsFit t b) (h2 : ∀ es, b ≠ .map es)
    (h3 : ∀ v, b = .bigDecimal v → v.signedBytes = [] → v.scale = 0)
    (h4 : ∀ d, b = .date d → mode = .debug → DateFits d)
    (h5 : ∀ bs, b ≠ .array bs ∧ b ≠ .tuple bs)
    (he : ser mode T v = Body.ser mode b)
    (h6 : ∀ d, b = .date d → N → ExistingDay d.year.toInt d.ordinal.toNat := by simp)
    (h7 : ∀ d, b = .dateTime d → N → InRange d := by simp)
    (h8 : ∀ v, b = .bigDecimal v → D → v.signedBytes ≠ [] → signedValue v.signedBytes ≠ 0 := by
      simp) :
    Agrees t mode N D (ser mode T v) (Body.de t mode size h) again b (bodyWire b) := by
  have hg : Body.Good t mode size b := Body.Good.of_parts (fun c hc => by
      rw [hb] at hc
      exact .inl (by simpa using hc)) h1 (fun es h => absurd h (h2 es)) h3 h4
      (fun bs h => h.elim (fun h => absurd h (h5 bs).1) fun h => absurd h (h5 bs).2)
  have hx : (Body.ser mode b).exec = (bodyWire b, .ok ()) :=
    Body.exec_ser t mode b (fun c hc => (hg.exist c hc).1) hg.dates
  exact ⟨by rw [he, hx], fun fin rest => Body.de_wire t mode size hm h b hc hg fin rest, fun _ => hx,
    spells_leaf hb h5 h2, BodyOk.of_parts (fun c hc => by
      rw [hb] at hc
      exact .inl (by simpa using hc)) h1 (fun es h => absurd h (h2 es)) h3 h4 h6 h7 h8⟩

/-- Member by member. -/
structure AgreesAll (t : Target) (mode : BuildMode) (N D : Prop) (p : WProg SerErr) (q : Prog DeErr (List Body))
    (again : Prop) (cs : List Body) (bs : List UInt8) : Prop where
  bytes : p.exec = (bs, .ok ())
  decodes : ∀ fin rest, Prog.exec t fin q (bs ++ rest) = .ok (cs, rest)
  again : again → (Body.serAll mode cs).exec = (bs, .ok ())
  spells : SpellsAll cs bs
  good : ∀ c ∈ cs, BodyOk t mode N D c

theorem AgreesAll.nil {t : Target} {mode : BuildMode} {again : Prop} :
    AgreesAll t mode N D .skip (pure []) again [] [] :=
  ⟨rfl, fun _ _ => rfl, fun _ => by rw [Body.serAll]; rfl, by rw [SpellsAll], by simp⟩

theorem AgreesAll.cons {t : Target} {mode : BuildMode} {p ps : WProg SerErr} {q : Prog DeErr Body}
    {qs : Prog DeErr (List Body)} {again again' again'' : Prop} {c : Body} {cs : List Body}
    {bs bs' : List UInt8} (h : Agrees t mode N D p q again c bs)
    (hs : AgreesAll t mode N D ps qs again' cs bs') (h1 : again'' → again) (h2 : again'' → again') :
    AgreesAll t mode N D (p.andThen ps) (do let b ← q; let bs ← qs; pure (b :: bs)) again'' (c :: cs)
      (bs ++ bs') where
  bytes := by rw [WProg.exec_andThen_ok h.bytes, hs.bytes]
  decodes := fun fin rest => by
    rw [Prog.bind_eq, Prog.exec_bind, List.append_assoc, h.decodes, Prog.next_ok]
    exact De.exec_wrap t fin _ (c :: ·) _ _ _ (hs.decodes fin rest)
  again := fun ha => by
    rw [Body.serAll, WProg.exec_andThen_ok (h.again (h1 ha)), hs.again (h2 ha)]
  spells := by rw [SpellsAll]; exact ⟨_, _, rfl, h.spells, hs.spells⟩
  good := fun c hc => by
    rcases List.mem_cons.mp hc with rfl | hc
    · exact h.good
    · exact hs.good c hc

/-- Vectors. -/
theorem agree_seq {t : Target} {mode : BuildMode} {α : Type} {f : α → WProg SerErr}
    {q : Prog DeErr Body} {R : α → Body → Prop} {again : Prop} : (vs : List α) →
    (∀ v ∈ vs, ∃ b bs, R v b ∧ Agrees t mode N D (f v) q again b bs) →
    ∃ cs bs, Pointwise R vs cs ∧ cs.length = vs.length ∧
      AgreesAll t mode N D (serSeq f vs) (De.times vs.length q) again cs bs
  | [], _ => ⟨[], [], trivial, rfl, .nil⟩
  | v :: vs, h => by
    obtain ⟨b, bs, hr, ha⟩ := h v (by simp)
    obtain ⟨cs, bs', hrs, hl, has⟩ := agree_seq vs fun v hv => h v (by simp [hv])
    exact ⟨b :: cs, bs ++ bs', ⟨hr, hrs⟩, by simp [hl], AgreesAll.cons ha has id id⟩

/-- Maps, read in the order written. -/
theorem agree_map {t : Target} {mode : BuildMode} {α : Type} {f : α → WProg SerErr}
    {q : Prog DeErr Body} {R : α → Body → Prop} {again : Prop} : (es : List (String × α)) →
    (∀ e ∈ es, (utf8 e.1).length < 2 ^ t.ptr.bits) →
    (∀ e ∈ es, ∃ b bs, R e.2 b ∧ Agrees t mode N D (f e.2) q again b bs) →
    ∃ cs bs, Pointwise (fun e c => e.1 = c.1 ∧ R e.2 c.2) es cs ∧ cs.length = es.length ∧
      cs.map Prod.fst = es.map Prod.fst ∧
      (serMap f es).exec = (bs, .ok ()) ∧
      (∀ fin m rest, Prog.exec t fin (Body.insertLoop t q es.length m) (bs ++ rest) =
        .ok (insertAll m cs, rest)) ∧
      (again → (Body.serEntries mode cs).exec = (bs, .ok ())) ∧
      (∃ ks, SpellsEntries cs ks ∧ bs = (ks.map fun k => block (utf8 k.1) ++ k.2).flatten) ∧
      ∀ c ∈ cs, BodyOk t mode N D c.2
  | [], _, _ => ⟨[], [], trivial, rfl, rfl, rfl, fun _ _ _ => rfl,
      fun _ => by rw [Body.serEntries]; rfl, ⟨[], by rw [SpellsEntries], rfl⟩, by simp⟩
  | (k, v) :: es, hk, h => by
    obtain ⟨b, bs, hr, ha⟩ := h (k, v) (by simp)
    obtain ⟨cs, bs', hrs, hl, hks, h1, h2, h3, ⟨ks, h4, h5⟩, h6⟩ := agree_map es (fun e he => hk e (by simp [he]))
      fun v hv => h v (by simp [hv])
    have hk0 : (utf8 k).length < 2 ^ t.ptr.bits := hk (k, v) (by simp)
    have hks0 := Ser.exec_serStr k (De.lt_64_of_lt_bits hk0)
    refine ⟨(k, b) :: cs, block (utf8 k) ++ (bs ++ bs'), ⟨⟨rfl, hr⟩, hrs⟩, by simp [hl], by simp [hks],
      ?_, ?_, ?_, ⟨(k, bs) :: ks, ?_, ?_⟩, ?_⟩
    · rw [serMap, WProg.exec_andThen_ok hks0, WProg.exec_andThen_ok ha.bytes, h1]
    · intro fin m rest
      rw [List.length_cons, Body.insertLoop, Prog.bind_eq, Prog.exec_bind, List.append_assoc,
        List.append_assoc, De.deString_block _ _ _ hk0, Prog.next_ok, Prog.bind_eq, Prog.exec_bind,
        ha.decodes, Prog.next_ok, h2]
      rfl
    · intro hag
      rw [Body.serEntries, WProg.exec_andThen_ok hks0, WProg.exec_andThen_ok (ha.again hag), h3 hag]
    · rw [SpellsEntries]
      exact ⟨_, _, rfl, ha.spells, h4⟩
    · rw [h5, List.map_cons, List.flatten_cons, List.append_assoc]
    · intro c hc
      rcases List.mem_cons.mp hc with rfl | hc
      · exact ha.good
      · exact h6 c hc

/-- A map with distinct keys is a permutation of the entries written. -/
theorem perm_insertAll (es : List (String × Body)) (h : (es.map Prod.fst).Nodup) :
    (insertAll [] es).Perm es := by
  have ha : Ascending (insertAll [] es) := ascending_insertAll es List.Pairwise.nil
  have hn : (insertAll [] es).Nodup :=
    List.Pairwise.imp (S := (· ≠ ·)) (fun {x y} hxy he => by
      subst he; exact bytes_lt_irrefl _ hxy) ha
  have hn' : es.Nodup := by
    rw [List.nodup_iff_pairwise_ne, List.pairwise_map] at h
    exact List.Pairwise.imp (S := (· ≠ ·)) (fun {x y} hxy he => by subst he; exact hxy rfl) h
  refine (List.perm_ext_iff_of_nodup hn hn').mpr fun e => ?_
  rw [mem_insertAll]
  constructor
  · rintro ⟨b, a, rfl, -⟩
    simp
  · intro he
    obtain ⟨b, a, rfl⟩ := List.append_of_mem he
    refine ⟨b, a, rfl, fun x hx hk => ?_⟩
    rw [List.map_append, List.map_cons, List.nodup_append, List.nodup_cons] at h
    exact h.2.1.1 (hk ▸ List.mem_map_of_mem hx)

theorem ascending_of_keys {α : Type} {es : List (String × α)} {cs : List (String × Body)}
    (h : es.Pairwise fun x y => utf8 x.1 < utf8 y.1) (hk : cs.map Prod.fst = es.map Prod.fst) :
    Ascending cs := by
  have h1 : (es.map Prod.fst).Pairwise fun x y => utf8 x < utf8 y := List.pairwise_map.mpr h
  rw [← hk] at h1
  exact (List.pairwise_map (f := Prod.fst) (R := fun x y => utf8 x < utf8 y)).mp h1

theorem keys_fit {α : Type} {t : Target} {es : List (String × α)} {cs : List (String × Body)}
    (h : ∀ e ∈ es, (utf8 e.1).length < 2 ^ t.ptr.bits) (hk : cs.map Prod.fst = es.map Prod.fst) :
    ∀ c ∈ cs, (utf8 c.1).length < 2 ^ t.ptr.bits := by
  intro c hc
  have : c.1 ∈ es.map Prod.fst := hk ▸ List.mem_map_of_mem hc
  obtain ⟨e, he, hk⟩ := List.mem_map.mp this
  exact hk ▸ h e he

theorem spellsEntries_perm {cs cs' : List (String × Body)} (h : cs'.Perm cs) :
    (ks : List (String × List UInt8)) → SpellsEntries cs ks →
    ∃ ks', ks'.Perm ks ∧ SpellsEntries cs' ks' := by
  induction h with
  | nil => exact fun ks h => ⟨ks, .refl _, h⟩
  | @cons x l1 l2 _ ih =>
    intro ks h
    obtain ⟨k, c⟩ := x
    rw [SpellsEntries] at h
    obtain ⟨x, ks1, rfl, h1, h2⟩ := h
    obtain ⟨ks', h3, h4⟩ := ih ks1 h2
    exact ⟨(k, x) :: ks', h3.cons _, by rw [SpellsEntries]; exact ⟨_, _, rfl, h1, h4⟩⟩
  | swap x y l =>
    intro ks h
    obtain ⟨k, c⟩ := x
    obtain ⟨k', c'⟩ := y
    rw [SpellsEntries] at h
    obtain ⟨x, ks1, rfl, h1, h2⟩ := h
    rw [SpellsEntries] at h2
    obtain ⟨y, ks2, rfl, h3, h4⟩ := h2
    refine ⟨(k', y) :: (k, x) :: ks2, .swap _ _ _, ?_⟩
    rw [SpellsEntries]
    refine ⟨_, _, rfl, h3, ?_⟩
    rw [SpellsEntries]
    exact ⟨_, _, rfl, h1, h4⟩
  | trans _ _ ih1 ih2 =>
    intro ks h
    obtain ⟨k1, h1, h2⟩ := ih2 ks h
    obtain ⟨k2, h3, h4⟩ := ih1 k1 h2
    exact ⟨k2, h3.trans h1, h4⟩

theorem serializedTypes_all {fs : List RField} (h : ∀ f ∈ fs, ¬ Skipped (fieldAttrs f)) :
    serializedTypes fs = fs.map fieldType := by
  rw [serializedTypes, List.filter_eq_self.mpr]
  exact fun f hf => decide_eq_true (h f hf)

/-! ## Agreement -/

mutual
theorem agree (t : Target) (mode : BuildMode) (size : Nat) (hm : 4096 ≤ t.memLimit) :
    (T : RTy) → (h : Header) → Describes T h → Countable h → (∀ U ∈ typeParts T, PlainPart U) →
    (∀ hs, .tuple hs ∈ headerParts h → t.allocate (hs.length * size) = none) →
    (v : Carrier T) → (∀ p ∈ valueParts T v, PartOk t mode size N D p) →
    ∃ b bs, Mirrors T v b ∧
      Agrees t mode N D (ser mode T v) (Body.de t mode size h) (NoHashMap T) b bs
  | .unit, _, .unit, _, _, _, v, _ => ⟨_, _, by simp [Mirrors], leaf hm .unit _ rfl .unit trivial
      (by simp) (by simp) (by simp) (by simp) (by rw [ser, Body.ser])⟩
  | .bool, _, .bool, _, _, _, v, _ => ⟨_, _, by simp [Mirrors], leaf hm (.boolean v) _ rfl
      (.boolean _) trivial (by simp) (by simp) (by simp) (by simp) (by rw [ser, Body.ser])⟩
  | .u8, _, .u8, _, _, _, v, _ => ⟨_, _, by simp [Mirrors], leaf hm (.uint8 v) _ rfl
      (.uint8 _) trivial (by simp) (by simp) (by simp) (by simp) (by rw [ser, Body.ser])⟩
  | .u16, _, .u16, _, _, _, v, _ => ⟨_, _, by simp [Mirrors], leaf hm (.uint16 v) _ rfl
      (.uint16 _) trivial (by simp) (by simp) (by simp) (by simp) (by rw [ser, Body.ser])⟩
  | .u32, _, .u32, _, _, _, v, _ => ⟨_, _, by simp [Mirrors], leaf hm (.uint32 v) _ rfl
      (.uint32 _) trivial (by simp) (by simp) (by simp) (by simp) (by rw [ser, Body.ser])⟩
  | .u64, _, .u64, _, _, _, v, _ => ⟨_, _, by simp [Mirrors], leaf hm (.uint64 v) _ rfl
      (.uint64 _) trivial (by simp) (by simp) (by simp) (by simp) (by rw [ser, Body.ser])⟩
  | .i8, _, .i8, _, _, _, v, _ => ⟨_, _, by simp [Mirrors], leaf hm (.int8 v) _ rfl
      (.int8 _) trivial (by simp) (by simp) (by simp) (by simp) (by rw [ser, Body.ser])⟩
  | .i16, _, .i16, _, _, _, v, _ => ⟨_, _, by simp [Mirrors], leaf hm (.int16 v) _ rfl
      (.int16 _) trivial (by simp) (by simp) (by simp) (by simp) (by rw [ser, Body.ser])⟩
  | .i32, _, .i32, _, _, _, v, _ => ⟨_, _, by simp [Mirrors], leaf hm (.int32 v) _ rfl
      (.int32 _) trivial (by simp) (by simp) (by simp) (by simp) (by rw [ser, Body.ser])⟩
  | .i64, _, .i64, _, _, _, v, _ => ⟨_, _, by simp [Mirrors], leaf hm (.int64 v) _ rfl
      (.int64 _) trivial (by simp) (by simp) (by simp) (by simp) (by rw [ser, Body.ser])⟩
  | .f32, _, .f32, _, _, _, v, _ => ⟨_, _, by simp [Mirrors], leaf hm (.float32 v) _ rfl
      (.float32 _) trivial (by simp) (by simp) (by simp) (by simp) (by rw [ser, Body.ser])⟩
  | .f64, _, .f64, _, _, _, v, _ => ⟨_, _, by simp [Mirrors], leaf hm (.float64 v) _ rfl
      (.float64 _) trivial (by simp) (by simp) (by simp) (by simp) (by rw [ser, Body.ser])⟩
  | .bigUint, _, .bigUint, _, _, _, v, hv => ⟨_, _, by simp [Mirrors], leaf hm (.bigUInt v) _ rfl
      (.bigUInt _) (hv _ (self_mem_valueParts _ _)).real (by simp) (by simp) (by simp) (by simp)
      (by rw [ser, Body.ser])⟩
  | .numBigUint, _, .numBigUint, _, _, _, n, hv => by
    obtain ⟨bs, h1, h2⟩ := (hv _ (self_mem_valueParts _ _)).real
    refine ⟨_, _, ?_, leaf hm (.bigUInt (BigUint.ofNum n)) _ rfl (.bigUInt _)
      (Nat.lt_of_le_of_lt ((BigUint.shortest n).2 bs h1.1) h2) (by simp) (by simp) (by simp) (by simp)
      (by rw [ser, Body.ser, Format.serBigUint_eq])⟩
    rw [Mirrors]
    exact ⟨_, rfl, BigUint.shortest n⟩
  | .bigInt, _, .bigInt, _, _, _, v, hv => ⟨_, _, by simp [Mirrors], leaf hm (.bigInt v) _ rfl
      (.bigInt _) (hv _ (self_mem_valueParts _ _)).real (by simp) (by simp) (by simp) (by simp)
      (by rw [ser, Body.ser])⟩
  | .numBigInt, _, .numBigInt, _, _, _, x, hv => by
    obtain ⟨bs, h1, h2⟩ := (hv _ (self_mem_valueParts _ _)).real
    refine ⟨_, _, ?_, leaf hm (.bigInt (BigInt.ofNum x)) _ rfl (.bigInt _)
      (Nat.lt_of_le_of_lt ((BigInt.shortest x).2 bs h1.1) h2) (by simp) (by simp) (by simp) (by simp)
      (by rw [ser, Body.ser, Format.serBigInt_eq])⟩
    rw [Mirrors]
    exact ⟨_, rfl, BigInt.shortest x⟩
  | .bigDecimal, _, .bigDecimal, _, _, _, v, hv => by
    have hl : v.signedBytes.length < 2 ^ t.ptr.bits := (hv _ (self_mem_valueParts _ _)).real
    refine ⟨_, _, by rw [Mirrors], leaf hm _ _ ?_ (.bigDecimal _) ?_ (by simp) ?_ (by simp)
      (by simp) ?_ (h8 := ?_)⟩
    · simp [parts]
    · split
      · exact Nat.two_pow_pos _
      · exact hl
    · intro w hw
      split at hw
      · cases hw; exact fun _ => rfl
      · cases hw; exact fun h => absurd h ‹_›
    · rw [ser, Body.ser]
      split
      · rename_i h0
        rw [BigDecimal.ser, BigDecimal.ser, if_pos h0, if_pos rfl]
      · rfl
    · intro w hw hD
      split at hw
      · cases hw; exact fun h => absurd rfl h
      · cases hw; exact (hv _ (self_mem_valueParts _ _)).digits hD _ rfl
  | .numBigDecimal, _, .numBigDecimal, _, _, _, v, hv => by
    obtain ⟨⟨bs, h1, h2⟩, hf⟩ := (hv _ (self_mem_valueParts _ _)).real
    have hsp := BigDecimal.ofNum_spec mode v hf
    obtain ⟨b, hb, h0, hsame, hne⟩ : ∃ b, BigDecimal.ofNum mode v = .ok b ∧
        (b.signedBytes = [] → b.scale = 0) ∧ SameNumber v b.toNum ∧
        (b.signedBytes ≠ [] → signedValue b.signedBytes ≠ 0) := by
      rcases hsp with ⟨hz, h1⟩ | ⟨hz, n, hn, hm, hs, -, h1, hb⟩
      · exact ⟨_, h1, fun _ => rfl, Num.same_of_zero hz rfl, fun h => absurd rfl h⟩
      · exact ⟨_, h1, fun h => absurd h (Num.toSignedBytesLe_ne_nil (Num.ne_zero_of_mod hm)), by
          rw [hb]; exact Num.same_symm hs, fun _ => by
          have := congrArg Num.Decimal.intVal hb
          rw [BigDecimal.toNum, Num.fromSignedBytesLe_eq] at this
          simp only at this
          rw [this]
          exact Num.ne_zero_of_mod hm⟩
    refine ⟨_, _, ?_, leaf hm (.bigDecimal b) _ rfl (.bigDecimal _)
      (Nat.lt_of_le_of_lt (BigDecimal.length_ofNum mode v hf b hb bs h1) h2) (by simp)
      (fun w hw => by cases hw; exact h0) (by simp) (by simp)
      (by rw [ser, Body.ser, Format.serBigDecimal_eq mode v hf b hb])
      (h8 := fun w hw _ => by cases hw; exact hne)⟩
    rw [Mirrors]
    refine ⟨_, rfl, ?_⟩
    rw [BigDecimal.toNum, Num.fromSignedBytesLe_eq] at hsame
    exact hsame
  | .str, _, .str, _, _, _, v, hv => ⟨_, _, by simp [Mirrors], leaf hm (.string v) _ rfl
      (.string _) (hv _ (self_mem_valueParts _ _)).real (by simp) (by simp) (by simp) (by simp)
      (by rw [ser, Body.ser])⟩
  | .string, _, .string, _, _, _, v, hv => ⟨_, _, by simp [Mirrors], leaf hm (.string v) _ rfl
      (.string _) (hv _ (self_mem_valueParts _ _)).real (by simp) (by simp) (by simp) (by simp)
      (by rw [ser, Body.ser])⟩
  | .bytes, _, .bytes, _, _, _, v, hv => ⟨_, _, by simp [Mirrors], leaf hm (.binary v) _ rfl
      (.binary _) (hv _ (self_mem_valueParts _ _)).real (by simp) (by simp) (by simp) (by simp)
      (by rw [ser, Body.ser])⟩
  | .byteBuf, _, .byteBuf, _, _, _, v, hv => ⟨_, _, by simp [Mirrors], leaf hm (.binary v) _ rfl
      (.binary _) (hv _ (self_mem_valueParts _ _)).real (by simp) (by simp) (by simp) (by simp)
      (by rw [ser, Body.ser])⟩
  | .date, _, .date, _, _, _, v, hv => ⟨_, _, by simp [Mirrors], leaf hm (.date v) _ rfl
      (.date _) trivial (by simp) (by simp)
      (fun d hd e => by cases hd; exact (hv _ (self_mem_valueParts _ _)).date e _ rfl) (by simp)
      (by rw [ser, Body.ser])
      (h6 := fun d hd hN => by cases hd; exact (hv _ (self_mem_valueParts _ _)).day hN _ rfl)⟩
  | .timeDate, _, .timeDate, _, _, _, v, hv => ⟨_, _, by simp [Mirrors],
      leaf hm (.date ⟨v.year, v.ordinal⟩) _ rfl (.date _) trivial (by simp) (by simp)
      (fun d hd e => by
        cases hd
        exact ExistingDay.fits (hv _ (self_mem_valueParts _ _)).real) (by simp)
      (by rw [ser, Body.ser]; rfl)
      (h6 := fun d hd _ => by cases hd; exact (hv _ (self_mem_valueParts _ _)).real)⟩
  | .dateTime, _, .dateTime, _, _, _, v, hv => ⟨_, _, by simp [Mirrors], leaf hm (.dateTime v) _ rfl
      (.dateTime _) trivial (by simp) (by simp) (by simp) (by simp) (by rw [ser, Body.ser])
      (h7 := fun d hd hN => by cases hd; exact (hv _ (self_mem_valueParts _ _)).second hN _ rfl)⟩
  | .offsetDateTime, _, .offsetDateTime, _, _, _, v, hv => by
    have hreal : v.Valid := (hv _ (self_mem_valueParts _ _)).real
    have hval := valid_fits hreal
    refine ⟨_, _, ?_, leaf hm (.dateTime ⟨Int64.ofInt v.seconds, UInt32.ofNat v.nanos⟩) _ rfl
      (.dateTime _) trivial (by simp) (by simp) (by simp) (by simp) (by rw [ser, Body.ser]; rfl)
      (h7 := fun d hd hN => by
        cases hd
        have hu := (hv _ (self_mem_valueParts _ _)).utc hN _ rfl
        have hn := hreal.1
        rw [UtcInRange] at hu
        rw [InRange]
        simp only [hval.1, hval.2]
        omega)⟩
    rw [Mirrors]
    exact ⟨_, rfl, hval⟩
  | .option T, _, .option _ h hd, hc, hp, ht, none, hv => by
    rw [ser]
    refine ⟨.none, [0], by rw [Mirrors], Ser.exec_emit _, fun fin rest => ?_, fun _ => ?_,
      by simp [Spells, bodyWire], BodyOk.of_parts (by simp [parts]) trivial (by simp) (by simp) (by simp) (by simp)
        (by simp) (by simp)⟩
    · have := De.deBool_byte t fin false rest
      simp only [Bool.false_eq_true, if_false] at this
      rw [Body.de, Prog.bind_eq, Prog.exec_bind, List.singleton_append, this]
      rfl
    · rw [Body.ser, Ser.exec_emit]
  | .option T, _, .option _ h hd, hc, hp, ht, some v, hv => by
    obtain ⟨b, bs, hM, ha⟩ := agree t mode size hm T h hd hc
      (fun U hU => hp U (by simp [typeParts, hU]))
      (fun hs hh => ht hs (by simp [headerParts, hh])) v
      (fun p hpp => hv p (by simp [valueParts, hpp]))
    rw [ser]
    refine ⟨.some b, 1 :: bs, by rw [Mirrors]; exact ⟨b, rfl, hM⟩, ?_, fun fin rest => ?_, fun hh => ?_,
      by rw [Spells]; exact ⟨_, rfl, ha.spells⟩, good_some ha.good⟩
    · rw [WProg.exec_andThen_ok (Ser.exec_emit _), ha.bytes]; rfl
    · have := De.deBool_byte t fin true (bs ++ rest)
      simp only [if_true] at this
      rw [Body.de, Prog.bind_eq, Prog.exec_bind, List.cons_append, this, Prog.next_ok, if_pos rfl]
      exact De.exec_wrap t fin _ Body.some _ _ _ (ha.decodes fin rest)
    · rw [Body.ser, WProg.exec_andThen_ok (Ser.exec_emit _),
        ha.again fun U hU => hh U (by simp [typeParts, hU])]
      rfl
  | .vec T, _, .vec _ h hd, hc, hp, ht, vs, hv => by
    have hself := hv _ (self_mem_valueParts _ _)
    have hl : vs.length < 2 ^ t.ptr.bits := hself.real
    have h64 := De.lt_64_of_lt_bits hl
    have hmem := hself.memory T vs rfl
    obtain ⟨cs, bs, hM, hlen, ha⟩ := agree_seq vs fun v hvm => agree t mode size hm T h hd hc
      (fun U hU => hp U (by simp [typeParts, hU]))
      (fun hs hh => ht hs (by simp [headerParts, hh])) v
      (fun p hpp => hv p (by
        rw [valueParts]
        exact List.mem_cons_of_mem _ (List.mem_flatten.mpr ⟨_, List.mem_map_of_mem hvm, hpp⟩)))
    rw [ser]
    refine ⟨.array cs, varint 64 vs.length ++ bs, by rw [Mirrors]; exact ⟨cs, rfl, hM⟩, ?_,
      fun fin rest => ?_, fun hh => ?_, by rw [Spells]; exact ⟨_, by rw [hlen], ha.spells⟩,
      good_array (by rw [hlen]; exact hl) ha.good⟩
    · rw [WProg.exec_andThen_ok (Ser.exec_serHint _ (by simpa using h64)), ha.bytes]; rfl
    · rw [Body.de, Prog.bind_eq, Prog.exec_bind, List.append_assoc, De.deU64,
        De.exec_u64_varint _ _ _ h64, Prog.next_ok, De.asUsize_ofNat hl, Body.exec_alloc _ _ _ hmem,
        UInt64.toNat_ofNat', Nat.mod_eq_of_lt h64]
      exact De.exec_wrap t fin _ Body.array _ _ _ (ha.decodes fin rest)
    · rw [Body.ser, hlen, WProg.exec_andThen_ok (Ser.exec_serHint _ (by simpa using h64)),
        ha.again fun U hU => hh U (by simp [typeParts, hU])]
      rfl
  | .btreeMap T, _, .btreeMap _ h hd, hc, hp, ht, es, hv => by
    obtain ⟨hl, hk, hasc⟩ := (hv _ (self_mem_valueParts _ _)).real
    have h64 := De.lt_64_of_lt_bits hl
    obtain ⟨cs, bs, hM, hlen, hkeys, h1, h2, h3, ⟨ks, h4, h5⟩, h6⟩ := agree_map es hk fun e he =>
      agree t mode size hm T h hd hc
      (fun U hU => hp U (by simp [typeParts, hU]))
      (fun hs hh => ht hs (by simp [headerParts, hh])) e.2
      (fun p hpp => hv p (by
        rw [valueParts]
        exact List.mem_cons_of_mem _ (List.mem_flatten.mpr
          ⟨_, List.mem_map_of_mem (f := fun e => valueParts T e.2) he, hpp⟩)))
    have hac : Ascending cs := ascending_of_keys hasc hkeys
    rw [ser]
    refine ⟨.map cs, varint 64 es.length ++ bs, by rw [Mirrors]; exact ⟨cs, rfl, hac, hM⟩, ?_,
      fun fin rest => ?_, fun hh => ?_,
      by rw [Spells]; exact ⟨ks, ks, h4, .refl _, by rw [hlen, h5]⟩,
      good_map (by rw [hlen]; exact hl) (keys_fit hk hkeys) hac h6⟩
    · rw [WProg.exec_andThen_ok (Ser.exec_serHint _ (by simpa using h64)), h1]; rfl
    · rw [Body.de, Prog.bind_eq, Prog.exec_bind, List.append_assoc, De.deU64,
        De.exec_u64_varint _ _ _ h64, Prog.next_ok, UInt64.toNat_ofNat', Nat.mod_eq_of_lt h64]
      refine De.exec_wrap t fin _ Body.map _ _ _ ?_
      rw [h2, insertAll_ascending cs [] hac, List.nil_append]
    · rw [Body.ser, hlen, WProg.exec_andThen_ok (Ser.exec_serHint _ (by simpa using h64)),
        h3 fun U hU => hh U (by simp [typeParts, hU])]
      rfl
  | .hashMap T, _, .hashMap _ h hd, hc, hp, ht, es, hv => by
    obtain ⟨hl, hk, hnd⟩ := (hv _ (self_mem_valueParts _ _)).real
    have h64 := De.lt_64_of_lt_bits hl
    obtain ⟨cs, bs, hM, hlen, hkeys, h1, h2, h3, ⟨ks, h4, h5⟩, h6⟩ := agree_map es hk fun e he =>
      agree t mode size hm T h hd hc
      (fun U hU => hp U (by simp [typeParts, hU]))
      (fun hs hh => ht hs (by simp [headerParts, hh])) e.2
      (fun p hpp => hv p (by
        rw [valueParts]
        exact List.mem_cons_of_mem _ (List.mem_flatten.mpr
          ⟨_, List.mem_map_of_mem (f := fun e => valueParts T e.2) he, hpp⟩)))
    have hn : (cs.map Prod.fst).Nodup := by
      rw [hkeys, List.nodup_iff_pairwise_ne, List.pairwise_map]
      exact hnd
    rw [ser]
    refine ⟨.map (insertAll [] cs), varint 64 es.length ++ bs, ?_, ?_,
      fun fin rest => ?_, fun hh => absurd (self_mem_typeParts _) (hh T), ?_, ?_⟩
    · rw [Mirrors]
      exact ⟨_, cs, rfl, ascending_insertAll cs List.Pairwise.nil, perm_insertAll cs hn, hM⟩
    · rw [WProg.exec_andThen_ok (Ser.exec_serHint _ (by simpa using h64)), h1]; rfl
    · rw [Body.de, Prog.bind_eq, Prog.exec_bind, List.append_assoc, De.deU64,
        De.exec_u64_varint _ _ _ h64, Prog.next_ok, UInt64.toNat_ofNat', Nat.mod_eq_of_lt h64]
      exact De.exec_wrap t fin _ Body.map _ _ _ (h2 fin [] rest)
    · have hpm := perm_insertAll cs hn
      obtain ⟨ks', hk1, hk2⟩ := spellsEntries_perm hpm ks h4
      rw [Spells]
      exact ⟨ks', ks, hk2, hk1, by rw [hpm.length_eq, hlen, h5]⟩
    · have hpm := perm_insertAll cs hn
      exact good_map (by rw [hpm.length_eq, hlen]; exact hl)
        (fun e he => keys_fit hk hkeys e (hpm.mem_iff.mp he)) (ascending_insertAll cs List.Pairwise.nil)
        fun e he => h6 e (hpm.mem_iff.mp he)
  | .tuple Ts, _, .tuple _ hs _ _ hd, hc, hp, ht, vs, hv => by
    rw [Countable] at hc
    obtain ⟨cs, bs, hM, ha⟩ := agree_tuple t mode size hm Ts hs hd hc.2
      (fun U hU => hp U (by simp [typeParts, hU]))
      (fun hs hh => ht hs (by simp [headerParts, hh])) vs
      (fun p hpp => hv p (by simp [valueParts, hpp]))
    rw [ser]
    refine ⟨.tuple cs, bs, by rw [Mirrors]; exact ⟨cs, rfl, hM⟩, ha.bytes, fun fin rest => ?_,
      fun hh => ?_, by rw [Spells]; exact ha.spells, good_tuple ha.good⟩
    · rw [Body.de, Body.exec_alloc _ _ _ (ht hs (by simp [headerParts]))]
      exact De.exec_wrap t fin _ Body.tuple _ _ _ (ha.decodes fin rest)
    · rw [Body.ser]
      exact ha.again fun U hU => hh U (by simp [typeParts, hU])
  | .struct name (.named fs), _, .struct _ _ hs _ hd, hc, hp, ht, vs, hv => by
    rw [Countable] at hc
    obtain ⟨cs, bs, hM, ha⟩ := agree_fields t mode size hm fs hs hd hc.2
      (fun U hU => hp U (by simp [typeParts, hU]))
      (fun hs hh => ht hs (by simp [headerParts, hh])) vs
      (fun p hpp => hv p (by simp [valueParts, hpp]))
    rw [ser]
    refine ⟨.tuple cs, bs, by rw [Mirrors]; exact ⟨cs, rfl, hM⟩, ha.bytes, fun fin rest => ?_,
      fun hh => ?_, by rw [Spells]; exact ha.spells, good_tuple ha.good⟩
    · rw [Body.de, Body.exec_alloc _ _ _ (ht hs (by simp [headerParts]))]
      exact De.exec_wrap t fin _ Body.tuple _ _ _ (ha.decodes fin rest)
    · rw [Body.ser]
      exact ha.again fun U hU => hh U (by simp [typeParts, hU])
  | .struct name (.unnamed fs), _, .struct _ _ hs _ hd, hc, hp, ht, vs, hv => by
    rw [Countable] at hc
    obtain ⟨cs, bs, hM, ha⟩ := agree_fields t mode size hm fs hs hd hc.2
      (fun U hU => hp U (by simp [typeParts, hU]))
      (fun hs hh => ht hs (by simp [headerParts, hh])) vs
      (fun p hpp => hv p (by simp [valueParts, hpp]))
    have hser : (ser mode (.struct name (.unnamed fs)) vs).exec = (serFields mode fs vs).exec := by
      match fs, vs with
      | [], vs => rw [ser, serFields]
      | [.mk attrs n T], (v, ()) =>
        have hns : ¬ Skipped attrs := hp _ (self_mem_typeParts _)
        rw [ser, serFields, if_neg (by rw [serdeSkips_iff]; exact hns), serFields,
          WProg.exec_andThen]
        cases hx : (ser mode T v).exec with
        | mk w o => cases o <;> simp [WProg.exec, WProg.skip]
      | f :: g :: fs, vs => rw [ser]
    refine ⟨.tuple cs, bs, by rw [Mirrors]; exact ⟨cs, rfl, hM⟩, hser.trans ha.bytes,
      fun fin rest => ?_, fun hh => ?_, by rw [Spells]; exact ha.spells, good_tuple ha.good⟩
    · rw [Body.de, Body.exec_alloc _ _ _ (ht hs (by simp [headerParts]))]
      exact De.exec_wrap t fin _ Body.tuple _ _ _ (ha.decodes fin rest)
    · rw [Body.ser]
      exact ha.again fun U hU => hh U (by simp [typeParts, hU])
  | .struct name .unit, _, .struct _ _ hs _ hd, hc, hp, ht, v, hv => by
    cases hd
    rw [ser]
    refine ⟨.tuple [], [], by rw [Mirrors], rfl, fun fin rest => ?_, fun hh => ?_,
      by rw [Spells, SpellsAll], good_tuple (by simp)⟩
    · rw [Body.de, Body.exec_alloc _ _ _ (ht [] (by simp [headerParts])), Body.deAll]
      rfl
    · rw [Body.ser, Body.serAll]; rfl
  | .enum name vs, _, .enum _ _ hs _ hd, hc, hp, ht, v, hv => by
    rw [Countable] at hc
    have hplain := hp _ (self_mem_typeParts _)
    rw [List.filter_eq_self.mpr fun v hvm => decide_eq_true (hplain v hvm).1] at hd
    obtain ⟨n, c, bs, hn, hM, h1, h2, h3, h4, h5⟩ := agree_variant t mode size hm vs hs hd hc.2 hplain
      (fun U hU => hp U (by simp [typeParts, hU]))
      (fun hs hh => ht hs (by simp [headerParts, hh])) name 0 (by omega) v
      (fun p hpp => hv p (by simp [valueParts, hpp]))
    rw [Nat.zero_add] at hM h1
    have h32 : n < 2 ^ 32 := by omega
    have hto : (UInt32.ofNat n).toNat = n := by rw [UInt32.toNat_ofNat']; omega
    rw [ser]
    refine ⟨.enum (UInt32.ofNat n) c, varint 32 n ++ bs, by rw [Mirrors]; exact hM, h1, fun fin rest => ?_,
      fun hh => ?_, by rw [Spells]; exact ⟨_, by rw [hto], h4⟩, good_enum h5⟩
    · rw [Body.de, Prog.bind_eq, Prog.exec_bind, List.append_assoc, De.deU32,
        De.exec_u32_varint _ _ _ h32, Prog.next_ok, hto]
      exact De.exec_wrap t fin _ (Body.enum _) _ _ _ (h2 fin rest)
    · rw [Body.ser, WProg.exec_andThen_ok (Ser.exec_serU32 _), hto,
        h3 fun U hU => hh U (by simp [typeParts, hU])]
theorem agree_tuple (t : Target) (mode : BuildMode) (size : Nat) (hm : 4096 ≤ t.memLimit) :
    (Ts : List RTy) → (hs : List Header) → DescribesAll Ts hs → AllCountable hs →
    (∀ U ∈ typePartsAll Ts, PlainPart U) →
    (∀ hs', .tuple hs' ∈ headersParts hs → t.allocate (hs'.length * size) = none) →
    (vs : TupleCarrier Ts) → (∀ p ∈ valuePartsAll Ts vs, PartOk t mode size N D p) →
    ∃ cs bs, TupleMirrors Ts vs cs ∧
      AgreesAll t mode N D (serTuple mode Ts vs) (Body.deAll t mode size hs)
        (∀ U, .hashMap U ∉ typePartsAll Ts) cs bs
  | [], _, .nil, _, _, _, _, _ => ⟨[], [], by rw [TupleMirrors], by
      rw [serTuple, Body.deAll]; exact .nil⟩
  | T :: Ts, _, .cons _ _ h hs hd hds, hc, hp, ht, (v, vs), hv => by
    rw [AllCountable] at hc
    obtain ⟨b, bs, hM, ha⟩ := agree t mode size hm T h hd hc.1
      (fun U hU => hp U (by simp [typePartsAll, hU]))
      (fun hs hh => ht hs (by simp [headersParts, hh])) v
      (fun p hpp => hv p (by simp [valuePartsAll, hpp]))
    obtain ⟨cs, bs', hMs, has⟩ := agree_tuple t mode size hm Ts hs hds hc.2
      (fun U hU => hp U (by simp [typePartsAll, hU]))
      (fun hs hh => ht hs (by simp [headersParts, hh])) vs
      (fun p hpp => hv p (by simp [valuePartsAll, hpp]))
    refine ⟨b :: cs, bs ++ bs', by rw [TupleMirrors]; exact ⟨b, cs, rfl, hM, hMs⟩, ?_⟩
    rw [serTuple, Body.deAll]
    exact AgreesAll.cons ha has (fun hh U hU => hh U (by simp [typePartsAll, hU]))
      (fun hh U hU => hh U (by simp [typePartsAll, hU]))
theorem agree_fields (t : Target) (mode : BuildMode) (size : Nat) (hm : 4096 ≤ t.memLimit) :
    (fs : List RField) → (hs : List Header) → DescribesAll (serializedTypes fs) hs →
    AllCountable hs → (∀ U ∈ typePartsFields fs, PlainPart U) →
    (∀ hs', .tuple hs' ∈ headersParts hs → t.allocate (hs'.length * size) = none) →
    (vs : FieldCarrier fs) → (∀ p ∈ valuePartsFields fs vs, PartOk t mode size N D p) →
    ∃ cs bs, FieldsMirror fs vs cs ∧
      AgreesAll t mode N D (serFields mode fs vs) (Body.deAll t mode size hs)
        (∀ U, .hashMap U ∉ typePartsFields fs) cs bs
  | [], hs, hd, _, _, _, _, _ => by
    cases hd
    exact ⟨[], [], by rw [FieldsMirror], by rw [serFields, Body.deAll]; exact .nil⟩
  | .mk attrs name T :: fs, hs, hd, hc, hp, ht, (v, vs), hv => by
    by_cases hs' : Skipped attrs
    · rw [serializedTypes_skip hs'] at hd
      obtain ⟨cs, bs', hMs, has⟩ := agree_fields t mode size hm fs hs hd hc
        (fun U hU => hp U (by simp [typePartsFields, hU])) ht vs
        (fun p hpp => hv p (by simp [valuePartsFields, hpp]))
      refine ⟨cs, bs', by rw [FieldsMirror, if_pos hs']; exact hMs, ?_⟩
      rw [serFields, if_pos ((serdeSkips_iff attrs).mpr hs')]
      exact ⟨has.bytes, has.decodes, fun hh => has.again fun U hU =>
        hh U (by simp [typePartsFields, hU]), has.spells, has.good⟩
    · rw [serializedTypes_keep hs'] at hd
      cases hd with
      | cons _ _ h hs hd hds =>
        rw [AllCountable] at hc
        obtain ⟨b, bs, hM, ha⟩ := agree t mode size hm T h hd hc.1
          (fun U hU => hp U (by simp [typePartsFields, hs', hU]))
          (fun hs hh => ht hs (by simp [headersParts, hh])) v
          (fun p hpp => hv p (by simp [valuePartsFields, hs', hpp]))
        obtain ⟨cs, bs', hMs, has⟩ := agree_fields t mode size hm fs hs hds hc.2
          (fun U hU => hp U (by simp [typePartsFields, hU]))
          (fun hs hh => ht hs (by simp [headersParts, hh])) vs
          (fun p hpp => hv p (by simp [valuePartsFields, hpp]))
        refine ⟨b :: cs, bs ++ bs', by
          rw [FieldsMirror, if_neg hs']; exact ⟨b, cs, rfl, hM, hMs⟩, ?_⟩
        rw [serFields, if_neg (by rw [serdeSkips_iff]; exact hs'), Body.deAll]
        exact AgreesAll.cons ha has (fun hh U hU => hh U (by simp [typePartsFields, hs', hU]))
          (fun hh U hU => hh U (by simp [typePartsFields, hU]))
theorem agree_payload (t : Target) (mode : BuildMode) (size : Nat) (hm : 4096 ≤ t.memLimit) :
    (fs : List RField) → (h : Header) → DescribesPayload (fs.map fieldType) h →
    Countable h → (∀ f ∈ fs, ¬ Skipped (fieldAttrs f)) → (∀ U ∈ typePartsFields fs, PlainPart U) →
    (∀ hs', .tuple hs' ∈ headerParts h → t.allocate (hs'.length * size) = none) →
    (vs : FieldCarrier fs) → (∀ p ∈ valuePartsFields fs vs, PartOk t mode size N D p) →
    ∃ b bs, PayloadMirrors fs vs b ∧
      Agrees t mode N D (serFields mode fs vs) (Body.de t mode size h)
        (∀ U, .hashMap U ∉ typePartsFields fs) b bs
  | [], h, hd, _, _, _, _, _, _ => by
    cases hd with
    | none =>
      refine ⟨.unit, [], by rw [PayloadMirrors], by rw [serFields]; rfl, fun _ _ => ?_, fun _ => ?_,
        by simp [Spells, bodyWire], good_unit⟩
      · rw [Body.de]; rfl
      · rw [Body.ser]; rfl
    | many _ hs h2 _ => simp at h2
  | [.mk attrs _ T], h, hd, hc, hns, hp, ht, (v, vs), hv => by
    cases hd with
    | many _ hs h2 _ => simp at h2
    | one _ _ hd =>
      have hs' : ¬ Skipped attrs := hns _ List.mem_cons_self
      obtain ⟨b, bs, hM, ha⟩ := agree t mode size hm T h hd hc
        (fun U hU => hp U (by simp [typePartsFields, hs', hU])) ht v
        (fun p hpp => hv p (by simp [valuePartsFields, hs', hpp]))
      refine ⟨b, bs, by rw [PayloadMirrors]; exact hM, ?_, ha.decodes, fun hh => ha.again
        fun U hU => hh U (by simp [typePartsFields, hs', hU]), ha.spells, ha.good⟩
      rw [serFields, if_neg (by rw [serdeSkips_iff]; exact hs'), serFields,
        WProg.exec_andThen_ok ha.bytes]
      simp [WProg.exec, WProg.skip]
  | f :: g :: fs, h, hd, hc, hns, hp, ht, vs, hv => by
    have key : ∀ hs, h = .tuple hs → DescribesAll ((f :: g :: fs).map fieldType) hs →
      ∃ b bs, PayloadMirrors (f :: g :: fs) vs b ∧
      Agrees t mode N D (serFields mode (f :: g :: fs) vs) (Body.de t mode size h)
        (∀ U, .hashMap U ∉ typePartsFields (f :: g :: fs)) b bs := by
      intro hs he hda
      subst he
      rw [Countable] at hc
      obtain ⟨cs, bs, hM, ha⟩ := agree_fields t mode size hm (f :: g :: fs) hs
        (by rw [serializedTypes_all hns]; exact hda) hc.2 hp
        (fun hs hh => ht hs (by simp [headerParts, hh])) vs hv
      refine ⟨.tuple cs, bs, by rw [PayloadMirrors]; exact ⟨cs, rfl, hM⟩, ha.bytes,
        fun fin rest => ?_, fun hh => ?_, by rw [Spells]; exact ha.spells, good_tuple ha.good⟩
      · rw [Body.de, Body.exec_alloc _ _ _ (ht hs (by simp [headerParts]))]
        exact De.exec_wrap t fin _ Body.tuple _ _ _ (ha.decodes fin rest)
      · rw [Body.ser]
        exact ha.again hh
    cases hd with
    | many _ hs _ hd2 => exact key hs rfl hd2
theorem agree_variant (t : Target) (mode : BuildMode) (size : Nat) (hm : 4096 ≤ t.memLimit) :
    (vs : List RVariant) → (hs : List Header) →
    DescribesPayloads (vs.map fun v => (Spec.variantFields v).map fieldType) hs →
    AllCountable hs → (∀ v ∈ vs, ¬ Skipped (variantAttrs v) ∧
      ∀ f ∈ Spec.variantFields v, ¬ Skipped (fieldAttrs f) ∧ ¬ Conditional (fieldAttrs f)) →
    (∀ U ∈ typePartsVariants vs, PlainPart U) →
    (∀ hs', .tuple hs' ∈ headersParts hs → t.allocate (hs'.length * size) = none) →
    (name : String) → (i : Nat) → i + hs.length ≤ 2 ^ 32 →
    (v : VariantsCarrier vs) → (∀ p ∈ valuePartsVariant vs v, PartOk t mode size N D p) →
    ∃ n c bs, n < hs.length ∧
      VariantMirrors i vs v (.enum (UInt32.ofNat (i + n)) c) ∧
      (serVariant mode name i vs v).exec = (varint 32 (i + n) ++ bs, .ok ()) ∧
      (∀ fin rest, Prog.exec t fin (Body.deNth t mode size n hs) (bs ++ rest) = .ok (c, rest)) ∧
      ((∀ U, .hashMap U ∉ typePartsVariants vs) → (Body.ser mode c).exec = (bs, .ok ())) ∧
      Spells c bs ∧ BodyOk t mode N D c
  | .mk attrs vn fields :: vs, hs, hd, hc, hns, hp, ht, name, i, hi, .inl v, hv => by
    have hs' : ¬ Skipped attrs := (hns _ List.mem_cons_self).1
    have hfs : ∀ f ∈ declared fields, ¬ Skipped (fieldAttrs f) :=
      fun f hf => ((hns _ List.mem_cons_self).2 f hf).1
    cases hd with
    | cons _ _ h hs hd hds =>
    rw [AllCountable] at hc
    have hto : (UInt32.ofNat i).toNat = i := by
      rw [List.length_cons] at hi; rw [UInt32.toNat_ofNat']; omega
    have fin' : ∀ (p : WProg SerErr) (c : Body) (bs : List UInt8) (again : Prop),
        Agrees t mode N D p (Body.de t mode size h) again c bs →
        ((∀ U, .hashMap U ∉ typePartsVariants (.mk attrs vn fields :: vs)) → again) →
        VariantMirrors i (.mk attrs vn fields :: vs) (.inl v) (.enum (UInt32.ofNat i) c) →
        serVariant mode name i (.mk attrs vn fields :: vs) (.inl v) =
          (Ser.serU32 (UInt32.ofNat i)).andThen p →
        ∃ n c bs, n < (h :: hs).length ∧
          VariantMirrors i (.mk attrs vn fields :: vs) (.inl v) (.enum (UInt32.ofNat (i + n)) c) ∧
          (serVariant mode name i (.mk attrs vn fields :: vs) (.inl v)).exec =
            (varint 32 (i + n) ++ bs, .ok ()) ∧
          (∀ fin rest, Prog.exec t fin (Body.deNth t mode size n (h :: hs)) (bs ++ rest) =
            .ok (c, rest)) ∧
          ((∀ U, .hashMap U ∉ typePartsVariants (.mk attrs vn fields :: vs)) →
            (Body.ser mode c).exec = (bs, .ok ())) ∧ Spells c bs ∧ BodyOk t mode N D c := by
      intro p c bs again ha h1 h2 h3
      exact ⟨0, c, bs, Nat.succ_pos _, h2, by
        rw [h3, WProg.exec_andThen_ok (Ser.exec_serU32 _), ha.bytes, hto]; rfl,
        fun fin rest => by rw [Body.deNth]; exact ha.decodes fin rest, fun hh => ha.again (h1 hh),
        ha.spells, ha.good⟩
    have hsk : ¬ serdeSkips attrs = true := by rw [serdeSkips_iff]; exact hs'
    cases fields with
    | named fs =>
      obtain ⟨c, bs, hM, ha⟩ := agree_payload t mode size hm fs h hd hc.1 hfs
        (fun U hU => hp U (by simp [typePartsVariants, hU]))
        (fun hs hh => ht hs (by simp [headersParts, hh])) v
        (fun p hpp => hv p (by simpa [valuePartsVariant] using hpp))
      refine fin' _ c bs _ ha (fun hh U hU => hh U (by simp [typePartsVariants, hU])) ?_ ?_
      · rw [VariantMirrors]; exact ⟨_, _, rfl, hto, hM⟩
      · rw [serVariant, if_neg hsk]
    | unnamed fs =>
      obtain ⟨c, bs, hM, ha⟩ := agree_payload t mode size hm fs h hd hc.1 hfs
        (fun U hU => hp U (by simp [typePartsVariants, hU]))
        (fun hs hh => ht hs (by simp [headersParts, hh])) v
        (fun p hpp => hv p (by simpa [valuePartsVariant] using hpp))
      refine fin' _ c bs _ ha (fun hh U hU => hh U (by simp [typePartsVariants, hU])) ?_ ?_
      · rw [VariantMirrors]; exact ⟨_, _, rfl, hto, hM⟩
      · rw [serVariant, if_neg hsk]
    | unit =>
      have hu : h = .unit := describesPayload_unique hd .none
      subst hu
      refine fin' .skip .unit [] True ⟨rfl, fun _ _ => ?_, fun _ => ?_,
        by simp [Spells, bodyWire], good_unit⟩ (fun _ => trivial) ?_ ?_
      · rw [Body.de]; rfl
      · rw [Body.ser]; rfl
      · rw [VariantMirrors]; exact ⟨_, _, rfl, hto, rfl⟩
      · rw [serVariant, if_neg hsk]
  | .mk attrs vn fields :: vs, hs, hd, hc, hns, hp, ht, name, i, hi, .inr v, hv => by
    cases hd with
    | cons _ _ h hs hd hds =>
    rw [AllCountable] at hc
    obtain ⟨n, c, bs, hn, hM, h1, h2, h3, h4, h5⟩ := agree_variant t mode size hm vs hs hds hc.2
      (fun v hvm => hns v (by simp [hvm]))
      (fun U hU => hp U (by cases fields <;> simp [typePartsVariants, hU]))
      (fun hs hh => ht hs (by simp [headersParts, hh])) name (i + 1) (by rw [List.length_cons] at hi; omega) v
      (fun p hpp => hv p (by cases fields <;> simpa [valuePartsVariant] using hpp))
    have he : i + 1 + n = i + (n + 1) := by omega
    rw [he] at hM h1
    refine ⟨n + 1, c, bs, by simpa using hn, ?_, ?_, fun fin rest => ?_,
      fun hh => h3 fun U hU => hh U (by cases fields <;> simp [typePartsVariants, hU]), h4, h5⟩
    · rw [VariantMirrors]; exact hM
    · rw [serVariant]; exact h1
    · rw [Body.deNth]; exact h2 fin rest
end

end

end Derive
end Dlhn
