import Verif.Proof.DeriveAgree
/-! # Reading the bytes of dynamic values by type -/
namespace Dlhn

open Spec hiding variantFields

namespace Derive

/-- From `bs`, whatever follows, `q` reads something that satisfies `R`. -/
def Takes {α : Type} (t : Target) (q : Prog DeErr α) (bs : List UInt8) (R : α → Prop) : Prop :=
  ∃ w, R w ∧ ∀ fin rest, Prog.exec t fin q (bs ++ rest) = .ok (w, rest)

section
variable {α β : Type} {t : Target}

theorem Takes.pure {w : α} {R : α → Prop} (h : R w) : Takes t (Pure.pure w) [] R :=
  ⟨w, h, fun _ _ => rfl⟩

theorem Takes.bind {q : Prog DeErr α} {f : α → Prog DeErr β} {bs bs' : List UInt8} {R : α → Prop}
    {S : β → Prop} (h : Takes t q bs R) (hf : ∀ a, R a → Takes t (f a) bs' S) :
    Takes t (q >>= f) (bs ++ bs') S := by
  obtain ⟨a, ha, hx⟩ := h
  obtain ⟨b, hb, hy⟩ := hf a ha
  refine ⟨b, hb, fun fin rest => ?_⟩
  rw [Prog.bind_eq, Prog.exec_bind, List.append_assoc, hx, Prog.next_ok, hy]

theorem Takes.map {q : Prog DeErr α} {f : α → β} {bs : List UInt8} {R : α → Prop} {S : β → Prop}
    (h : Takes t q bs R) (hf : ∀ a, R a → S (f a)) :
    Takes t (q >>= fun a => Pure.pure (f a)) bs S := by
  have := h.bind (bs' := []) fun a ha => Takes.pure (hf a ha)
  rwa [List.append_nil] at this

theorem Takes.map_bind {γ : Type} {p : Prog DeErr γ} {q : γ → Prog DeErr α} {f : α → β}
    {bs : List UInt8} {R : α → Prop} {S : β → Prop} (h : Takes t (p >>= q) bs R)
    (hf : ∀ a, R a → S (f a)) :
    Takes t (p >>= fun n => q n >>= fun a => Pure.pure (f a)) bs S := by
  obtain ⟨a, ha, hx⟩ := h.map hf
  refine ⟨a, ha, fun fin rest => ?_⟩
  rw [← hx fin rest]
  simp only [Prog.bind_eq, Prog.exec_bind]
  cases Prog.exec t fin p (bs ++ rest) with
  | ok x => obtain ⟨x, r⟩ := x; simp [Prog.next_ok]
  | err e => rfl
  | panic k => rfl

theorem Takes.mono {q : Prog DeErr α} {bs : List UInt8} {R S : α → Prop} (h : Takes t q bs R)
    (hf : ∀ a, R a → S a) : Takes t q bs S := by
  obtain ⟨a, ha, hx⟩ := h
  exact ⟨a, hf a ha, hx⟩

theorem takes_times {q : Prog DeErr α} {S : α → Body → Prop} : (cs : List Body) →
    (bs : List UInt8) → SpellsAll cs bs →
    (∀ c ∈ cs, ∀ x, Spells c x → Takes t q x fun w => S w c) →
    Takes t (De.times cs.length q) bs fun ws => Pointwise S ws cs
  | [], bs, hs, _ => by rw [SpellsAll] at hs; subst hs; exact .pure trivial
  | c :: cs, bs, hs, h => by
    rw [SpellsAll] at hs
    obtain ⟨x, y, rfl, h1, h2⟩ := hs
    rw [List.length_cons, De.times]
    exact (h c List.mem_cons_self x h1).bind fun w hw =>
      (takes_times cs y h2 fun d hd => h d (List.mem_cons_of_mem _ hd)).map fun ws hws => ⟨hw, hws⟩

theorem takes_entries {q : Prog DeErr α} {S : α → Body → Prop} : (es : List (String × Body)) →
    (ks : List (String × List UInt8)) → SpellsEntries es ks →
    (∀ e ∈ es, (utf8 e.1).length < 2 ^ t.ptr.bits) →
    (∀ e ∈ es, ∀ x, Spells e.2 x → Takes t q x fun w => S w e.2) →
    Takes t (deEntries t q es.length) (ks.map fun k => block (utf8 k.1) ++ k.2).flatten fun ws =>
      Pointwise (fun w e => w.1 = e.1 ∧ S w.2 e.2) ws es
  | [], ks, hs, _, _ => by rw [SpellsEntries] at hs; subst hs; exact .pure trivial
  | (k, b) :: es, ks, hs, hk, h => by
    rw [SpellsEntries] at hs
    obtain ⟨x, ks', rfl, h1, h2⟩ := hs
    rw [List.length_cons, deEntries, List.map_cons, List.flatten_cons, List.append_assoc]
    refine Takes.bind (R := fun s => s = k) ⟨k, rfl, fun fin rest =>
      De.deString_block t fin k (hk (k, b) List.mem_cons_self) rest⟩ fun s hs => ?_
    subst hs
    exact (h (s, b) List.mem_cons_self x h1).bind fun w hw =>
      (takes_entries es ks' h2 (fun e he => hk e (List.mem_cons_of_mem _ he))
        fun e he => h e (List.mem_cons_of_mem _ he)).map fun ws hws => ⟨⟨rfl, hw⟩, hws⟩

theorem entries_perm {ks ks' : List (String × List UInt8)} (h : ks.Perm ks') :
    (es : List (String × Body)) → SpellsEntries es ks →
    ∃ fs, fs.Perm es ∧ SpellsEntries fs ks' := by
  induction h with
  | nil => exact fun es h => ⟨es, .refl _, h⟩
  | @cons x l1 l2 _ ih =>
    intro es h
    match es, h with
    | [], h => rw [SpellsEntries] at h; cases h
    | (k, c) :: es, h =>
      rw [SpellsEntries] at h
      obtain ⟨y, ks1, he, h1, h2⟩ := h
      cases he
      obtain ⟨fs, h3, h4⟩ := ih es h2
      exact ⟨(k, c) :: fs, h3.cons _, by rw [SpellsEntries]; exact ⟨_, _, rfl, h1, h4⟩⟩
  | swap x y l =>
    intro es h
    match es, h with
    | [], h => rw [SpellsEntries] at h; cases h
    | [(k, c)], h =>
      rw [SpellsEntries] at h
      obtain ⟨y, ks1, he, h1, h2⟩ := h
      cases he
      rw [SpellsEntries] at h2
      cases h2
    | (k, c) :: (k', c') :: es, h =>
      rw [SpellsEntries] at h
      obtain ⟨y, ks1, he, h1, h2⟩ := h
      cases he
      rw [SpellsEntries] at h2
      obtain ⟨z, ks2, he, h3, h4⟩ := h2
      cases he
      refine ⟨(k', c') :: (k, c) :: es, .swap _ _ _, ?_⟩
      rw [SpellsEntries]
      refine ⟨_, _, rfl, h3, ?_⟩
      rw [SpellsEntries]
      exact ⟨_, _, rfl, h1, h4⟩
  | trans _ _ ih1 ih2 =>
    intro es h
    obtain ⟨f1, h1, h2⟩ := ih1 es h
    obtain ⟨f2, h3, h4⟩ := ih2 f1 h2
    exact ⟨f2, h3.trans h1, h4⟩

/-- Sorting the entries of an ordered map again. -/
theorem insertAll_perm {es fs : List (String × Body)} (ha : Ascending es) (hp : fs.Perm es) :
    (fs.map Prod.fst).Nodup ∧ insertAll [] fs = es := by
  have hn : (es.map Prod.fst).Nodup := by
    rw [List.nodup_iff_pairwise_ne, List.pairwise_map]
    exact List.Pairwise.imp (fun {x y} hxy he => by rw [he] at hxy; exact bytes_lt_irrefl _ hxy) ha
  have hn' : (fs.map Prod.fst).Nodup := (hp.map _).nodup_iff.mpr hn
  refine ⟨hn', List.Perm.eq_of_pairwise ?_ (ascending_insertAll fs List.Pairwise.nil) ha
    ((perm_insertAll fs hn').trans hp)⟩
  intro a b _ _ h1 h2
  exact absurd (List.lt_trans h1 h2) (bytes_lt_irrefl _)

theorem takes_count {n : Nat} (h : n < 2 ^ t.ptr.bits) :
    Takes t De.deU64 (varint 64 n) fun c => t.asUsize c = n :=
  ⟨UInt64.ofNat n, De.asUsize_ofNat h, fun fin rest => by
    rw [De.deU64, De.exec_u64_varint _ _ _ (De.lt_64_of_lt_bits h)]⟩

/-- The entries of a map, read in the order in which they come. -/
theorem takes_map {q : Prog DeErr α} {S : α → Body → Prop} (es : List (String × Body))
    (bs : List UInt8) (hs : Spells (.map es) bs) (hl : es.length < 2 ^ t.ptr.bits)
    (hk : ∀ e ∈ es, (utf8 e.1).length < 2 ^ t.ptr.bits)
    (h : ∀ e ∈ es, ∀ x, Spells e.2 x → Takes t q x fun w => S w e.2) :
    Takes t (De.deU64 >>= fun n => deEntries t q (t.asUsize n)) bs fun ws =>
      ∃ fs, fs.Perm es ∧ Pointwise (fun w e => w.1 = e.1 ∧ S w.2 e.2) ws fs := by
  rw [Spells] at hs
  obtain ⟨ks, ks', h1, h2, rfl⟩ := hs
  obtain ⟨fs, hp, h3⟩ := entries_perm h2 es h1
  refine (takes_count hl).bind fun n hn => ?_
  rw [hn, ← hp.length_eq]
  exact (takes_entries fs ks' h3 (fun e he => hk e (hp.mem_iff.mp he))
    fun e he => h e (hp.mem_iff.mp he)).mono fun ws hws => ⟨fs, hp, hws⟩

end

/-- What is asked of a type. -/
structure ReadPart (env : Env) (N D : Prop) (U : RTy) : Prop where
  readable : ReadablePart U
  plain : PlainPart U
  symmetric : SymmetricPart U
  defaulted : DefaultedPart env U
  checks : CheckedPart U → N
  decimals : U = .numBigDecimal → D

section
variable {t : Target} {mode : BuildMode} {N D : Prop}

theorem takes_numBigDecimal (v : BigDecimal) (hl : v.signedBytes.length < 2 ^ t.ptr.bits)
    (hd : v.signedBytes ≠ [] → signedValue v.signedBytes ≠ 0) :
    Takes t (Format.deBigDecimal t) (decimalWire v) fun w =>
      SameNumber w ⟨signedValue v.signedBytes, v.scale⟩ := by
  rw [Format.deBigDecimal, decimalWire]
  by_cases h0 : v.signedBytes = []
  · rw [if_pos h0, ← block_nil, ← List.append_nil (block [])]
    refine Takes.bind (R := fun bs => bs = []) ⟨[], rfl, fun fin rest =>
      De.deVecU8_block t fin [] rest (by simpa using Nat.two_pow_pos _)⟩ fun bs hbs => ?_
    subst hbs
    exact Takes.pure (Num.same_of_zero rfl (by rw [h0]; rfl))
  · rw [if_neg h0]
    refine Takes.bind (R := fun bs => bs = v.signedBytes) ⟨_, rfl, fun fin rest =>
      De.deVecU8_block t fin _ rest hl⟩ fun bs hbs => ?_
    subst hbs
    simp only [Num.fromSignedBytesLe_eq, if_neg (hd h0)]
    exact Takes.map (R := fun s => s = v.scale) ⟨_, rfl, fun fin rest =>
      De.deI64_wire t fin v.scale rest⟩ fun s hs => by subst hs; exact Num.same_refl _

theorem takes_timeDate (d : Date) (h : ExistingDay d.year.toInt d.ordinal.toNat) :
    Takes t (Format.deDate mode) (dateWire d) fun w => Body.date d = .date ⟨w.year, w.ordinal⟩ := by
  refine ⟨⟨d.year, d.ordinal⟩, rfl, fun fin rest => ?_⟩
  exact (reads_timeDate t mode ⟨d.year, d.ordinal⟩ h).decodes fin rest

theorem takes_offsetDateTime (d : DateTime) (h : firstSecond ≤ d.unixTimestamp.toInt)
    (h' : d.unixTimestamp.toInt * 1000000000 + d.nanosecond.toNat < (lastSecond + 1) * 1000000000) :
    Takes t Format.deDateTime (dateTimeWire d) fun w =>
      w.instant = d.unixTimestamp.toInt * 1000000000 + d.nanosecond.toNat := by
  refine ⟨⟨d.unixTimestamp.toInt + d.nanosecond.toNat / 1000000000,
    d.nanosecond.toNat % 1000000000, 0⟩, ?_, fun fin rest => ?_⟩
  · (try dsimp only)
    rw [Time.OffsetDateTime.instant]
    simp only
    omega
  · rw [Format.exec_deDateTime_eq, DateTime.exec_de, Prog.next_ok, DateTime.toTime]
    simp only [fromUnix_some h (show d.unixTimestamp.toInt ≤ lastSecond by omega), addNanos_spec]
    rw [if_pos h']

mutual
theorem takes_body (env : Env) (ho : FairOrder env) (hm : 4096 ≤ t.memLimit) :
    (T : RTy) → (h : Header) → Describes T h → (∀ U ∈ typeParts T, ReadPart env N D U) →
    (b : Body) → Conforms h b → BodyOk t mode N D b → (bs : List UInt8) → Spells b bs →
    Takes t (deTy t mode env T) bs fun w => SameContent T w b
  | .unit, _, .unit, _, _, .unit, _, bs, hs => by
    obtain rfl : bs = bodyWire _ := by simpa [Spells] using hs
    rw [deTy, bodyWire]; exact .pure (by (try dsimp only); rw [SameContent])
  | .bool, _, .bool, _, _, .boolean v, _, bs, hs => by
    obtain rfl : bs = bodyWire _ := by simpa [Spells] using hs
    rw [deTy, bodyWire]
    exact ⟨v, by (try dsimp only); rw [SameContent], fun fin rest => De.deBool_byte t fin v rest⟩
  | .u8, _, .u8, _, _, .uint8 v, _, bs, hs => by
    obtain rfl : bs = bodyWire _ := by simpa [Spells] using hs
    rw [deTy, bodyWire]
    exact ⟨v, by (try dsimp only); rw [SameContent], fun fin rest => De.deU8_wire t fin v rest⟩
  | .u16, _, .u16, _, _, .uint16 v, _, bs, hs => by
    obtain rfl : bs = bodyWire _ := by simpa [Spells] using hs
    rw [deTy, bodyWire]
    refine ⟨v, by (try dsimp only); rw [SameContent], fun fin rest => ?_⟩
    rw [De.deU16, De.exec_u16_varint _ _ _ (UInt16.toNat_lt _), UInt16.ofNat_toNat]
  | .u32, _, .u32, _, _, .uint32 v, _, bs, hs => by
    obtain rfl : bs = bodyWire _ := by simpa [Spells] using hs
    rw [deTy, bodyWire]
    refine ⟨v, by (try dsimp only); rw [SameContent], fun fin rest => ?_⟩
    rw [De.deU32, De.exec_u32_varint _ _ _ (UInt32.toNat_lt _), UInt32.ofNat_toNat]
  | .u64, _, .u64, _, _, .uint64 v, _, bs, hs => by
    obtain rfl : bs = bodyWire _ := by simpa [Spells] using hs
    rw [deTy, bodyWire]
    refine ⟨v, by (try dsimp only); rw [SameContent], fun fin rest => ?_⟩
    rw [De.deU64, De.exec_u64_varint _ _ _ (UInt64.toNat_lt _), UInt64.ofNat_toNat]
  | .i8, _, .i8, _, _, .int8 v, _, bs, hs => by
    obtain rfl : bs = bodyWire _ := by simpa [Spells] using hs
    rw [deTy, bodyWire]
    exact ⟨v, by (try dsimp only); rw [SameContent], fun fin rest => De.deI8_wire t fin v rest⟩
  | .i16, _, .i16, _, _, .int16 v, _, bs, hs => by
    obtain rfl : bs = bodyWire _ := by simpa [Spells] using hs
    rw [deTy, bodyWire]
    exact ⟨v, by (try dsimp only); rw [SameContent], fun fin rest => De.deI16_wire t fin v rest⟩
  | .i32, _, .i32, _, _, .int32 v, _, bs, hs => by
    obtain rfl : bs = bodyWire _ := by simpa [Spells] using hs
    rw [deTy, bodyWire]
    exact ⟨v, by (try dsimp only); rw [SameContent], fun fin rest => De.deI32_wire t fin v rest⟩
  | .i64, _, .i64, _, _, .int64 v, _, bs, hs => by
    obtain rfl : bs = bodyWire _ := by simpa [Spells] using hs
    rw [deTy, bodyWire]
    exact ⟨v, by (try dsimp only); rw [SameContent], fun fin rest => De.deI64_wire t fin v rest⟩
  | .f32, _, .f32, _, _, .float32 v, _, bs, hs => by
    obtain rfl : bs = bodyWire _ := by simpa [Spells] using hs
    rw [deTy, bodyWire]
    exact ⟨v, by (try dsimp only); rw [SameContent], fun fin rest => De.deF32_wire t fin v rest⟩
  | .f64, _, .f64, _, _, .float64 v, _, bs, hs => by
    obtain rfl : bs = bodyWire _ := by simpa [Spells] using hs
    rw [deTy, bodyWire]
    exact ⟨v, by (try dsimp only); rw [SameContent], fun fin rest => De.deF64_wire t fin v rest⟩
  | .bigUint, _, .bigUint, _, _, .bigUInt v, hb, bs, hs => by
    obtain rfl : bs = bodyWire _ := by simpa [Spells] using hs
    rw [deTy, bodyWire]
    exact ⟨v, by (try dsimp only); rw [SameContent], fun fin rest => BigUint.exec_de t fin v
      (hb.exist _ (Body.self_mem_parts _)).1 rest⟩
  | .numBigUint, _, .numBigUint, _, _, .bigUInt v, hb, bs, hs => by
    obtain rfl : bs = bodyWire _ := by simpa [Spells] using hs
    rw [deTy, bodyWire]
    exact ⟨Num.fromBytesLe v.bytes, by (try dsimp only); rw [SameContent]; exact ⟨v, rfl, (Num.fromBytesLe_eq _).symm⟩,
      fun fin rest => De.exec_wrap t fin _ Num.fromBytesLe _ _ _
        (De.deVecU8_block t fin _ rest (hb.exist _ (Body.self_mem_parts _)).1)⟩
  | .bigInt, _, .bigInt, _, _, .bigInt v, hb, bs, hs => by
    obtain rfl : bs = bodyWire _ := by simpa [Spells] using hs
    rw [deTy, bodyWire]
    exact ⟨v, by (try dsimp only); rw [SameContent], fun fin rest => BigInt.exec_de t fin v
      (hb.exist _ (Body.self_mem_parts _)).1 rest⟩
  | .numBigInt, _, .numBigInt, _, _, .bigInt v, hb, bs, hs => by
    obtain rfl : bs = bodyWire _ := by simpa [Spells] using hs
    rw [deTy, bodyWire]
    exact ⟨Num.fromSignedBytesLe v.bytes, by
      (try dsimp only); rw [SameContent]; exact ⟨v, rfl, (Num.fromSignedBytesLe_eq _).symm⟩,
      fun fin rest => De.exec_wrap t fin _ Num.fromSignedBytesLe _ _ _
        (De.deVecU8_block t fin _ rest (hb.exist _ (Body.self_mem_parts _)).1)⟩
  | .bigDecimal, _, .bigDecimal, _, _, .bigDecimal v, hb, bs, hs => by
    obtain rfl : bs = bodyWire _ := by simpa [Spells] using hs
    rw [deTy, bodyWire]
    exact ⟨v, by (try dsimp only); rw [SameContent], fun fin rest => BigDecimal.exec_de t fin v
      (hb.exist _ (Body.self_mem_parts _)).1 (hb.clean _ (Body.self_mem_parts _)) rest⟩
  | .numBigDecimal, _, .numBigDecimal, hp, _, .bigDecimal v, hb, bs, hs => by
    obtain rfl : bs = bodyWire _ := by simpa [Spells] using hs
    rw [deTy, bodyWire]
    exact (takes_numBigDecimal v (hb.exist _ (Body.self_mem_parts _)).1
      (hb.digits ((hp _ (self_mem_typeParts _)).decimals rfl) v (Body.self_mem_parts _))).mono
      fun w hw => by (try dsimp only); rw [SameContent]; exact ⟨v, rfl, hw⟩
  | .str, _, .str, hp, _, _, _, _, _ => ((hp _ (self_mem_typeParts _)).readable).elim
  | .string, _, .string, _, _, .string v, hb, bs, hs => by
    obtain rfl : bs = bodyWire _ := by simpa [Spells] using hs
    rw [deTy, bodyWire]
    exact ⟨v, by (try dsimp only); rw [SameContent], fun fin rest => De.deString_block t fin v
      (hb.exist _ (Body.self_mem_parts _)).1 rest⟩
  | .bytes, _, .bytes, hp, _, _, _, _, _ => ((hp _ (self_mem_typeParts _)).readable).elim
  | .byteBuf, _, .byteBuf, _, _, .binary v, hb, bs, hs => by
    obtain rfl : bs = bodyWire _ := by simpa [Spells] using hs
    rw [deTy, bodyWire]
    exact ⟨v, by (try dsimp only); rw [SameContent], fun fin rest => De.deByteBuf_block t hm fin v rest
      (hb.exist _ (Body.self_mem_parts _)).1⟩
  | .date, _, .date, _, _, .date v, hb, bs, hs => by
    obtain rfl : bs = bodyWire _ := by simpa [Spells] using hs
    rw [deTy, bodyWire]
    exact ⟨v, by (try dsimp only); rw [SameContent], fun fin rest => Date.exec_de t fin mode v
      (fun e => hb.dates e _ (Body.self_mem_parts _)) rest⟩
  | .timeDate, _, .timeDate, hp, _, .date v, hb, bs, hs => by
    obtain rfl : bs = bodyWire _ := by simpa [Spells] using hs
    rw [deTy, bodyWire]
    exact (takes_timeDate v ((hb.times ((hp _ (self_mem_typeParts _)).checks trivial)).1 v
      (Body.self_mem_parts _))).mono fun w hw => by (try dsimp only); rw [SameContent]; exact hw
  | .dateTime, _, .dateTime, _, _, .dateTime v, _, bs, hs => by
    obtain rfl : bs = bodyWire _ := by simpa [Spells] using hs
    rw [deTy, bodyWire]
    exact ⟨v, by (try dsimp only); rw [SameContent], fun fin rest => DateTime.exec_de t fin v rest⟩
  | .offsetDateTime, _, .offsetDateTime, hp, _, .dateTime v, hb, bs, hs => by
    obtain rfl : bs = bodyWire _ := by simpa [Spells] using hs
    rw [deTy, bodyWire]
    have := (hb.times ((hp _ (self_mem_typeParts _)).checks trivial)).2 v (Body.self_mem_parts _)
    exact (takes_offsetDateTime v this.1 this.2).mono fun w hw => by
      (try dsimp only); rw [SameContent]; exact ⟨v, rfl, hw⟩
  | .option T, _, .option _ h hd, hp, _, .none _, _, bs, hs => by
    obtain rfl : bs = bodyWire _ := by simpa [Spells] using hs
    rw [deTy, bodyWire]
    have h0 : Takes t De.deBool [0] fun x => x = false := ⟨false, rfl, fun fin rest => by
      have := De.deBool_byte t fin false rest
      simpa using this⟩
    have := h0.bind (bs' := []) (f := fun x => if x = true then do pure (some (← deTy t mode env T))
      else pure none) (S := fun w => SameContent (.option T) w .none) fun x hx => by
        subst hx; exact Takes.pure (by (try dsimp only); rw [SameContent])
    rwa [List.append_nil] at this
  | .option T, _, .option _ h hd, hp, _, .some _ c hc, hb, bs, hs => by
    rw [Spells] at hs
    obtain ⟨bs', rfl, hs⟩ := hs
    rw [deTy]
    have h0 : Takes t De.deBool [1] fun x => x = true := ⟨true, rfl, fun fin rest => by
      have := De.deBool_byte t fin true rest
      simpa using this⟩
    have ih := takes_body env ho hm T h hd (fun U hU => hp U (by simp [typeParts, hU])) c hc
      (hb.mono fun x hx => by simp [parts, hx]) bs' hs
    exact h0.bind fun x hx => by
      subst hx
      exact ih.map fun w hw => by (try dsimp only); rw [SameContent]; exact ⟨c, rfl, hw⟩
  | .vec T, _, .vec _ h hd, hp, _, .array _ cs hc, hb, bs, hs => by
    rw [Spells] at hs
    obtain ⟨bs', rfl, hs⟩ := hs
    rw [deTy]
    refine (takes_count (hb.exist _ (Body.self_mem_parts _)).1).bind fun n hn => ?_
    rw [hn]
    refine (takes_times cs bs' hs fun c hcm => takes_body env ho hm T h hd
      (fun U hU => hp U (by simp [typeParts, hU])) c (hc c hcm) (hb.mono fun x hx => ?_)).mono
      fun ws hws => by (try dsimp only); rw [SameContent]; exact ⟨cs, rfl, hws⟩
    simp only [parts, List.mem_cons, Body.mem_partsAll]
    exact .inr ⟨c, hcm, hx⟩
  | .btreeMap T, _, .btreeMap _ h hd, hp, _, .map _ es hc, hb, bs, hs => by
    have hl := (hb.exist _ (Body.self_mem_parts _)).1
    have hasc := (hb.exist _ (Body.self_mem_parts _)).2 es rfl
    rw [deTy]
    refine Takes.map_bind (takes_map es bs hs hl.1 hl.2 fun e he => takes_body env ho hm T h hd
      (fun U hU => hp U (by simp [typeParts, hU])) e.2 (hc e he) (hb.mono fun x hx => ?_))
      fun ws hws => ?_
    · simp only [parts, List.mem_cons, Body.mem_partsEntries]
      exact .inr ⟨e, he, hx⟩
    · obtain ⟨fs, hpm, hpw⟩ := hws
      have := pointwise_collectBTree ws fs hpw
      rw [(insertAll_perm hasc hpm).2] at this
      rw [SameContent]
      exact ⟨es, rfl, hasc, this⟩
  | .hashMap T, _, .hashMap _ h hd, hp, _, .map _ es hc, hb, bs, hs => by
    have hl := (hb.exist _ (Body.self_mem_parts _)).1
    have hasc := (hb.exist _ (Body.self_mem_parts _)).2 es rfl
    rw [deTy]
    refine Takes.map_bind (takes_map es bs hs hl.1 hl.2 fun e he => takes_body env ho hm T h hd
      (fun U hU => hp U (by simp [typeParts, hU])) e.2 (hc e he) (hb.mono fun x hx => ?_))
      fun ws hws => ?_
    · simp only [parts, List.mem_cons, Body.mem_partsEntries]
      exact .inr ⟨e, he, hx⟩
    · obtain ⟨fs, hpm, hpw⟩ := hws
      have := pointwise_collectHash ws fs hpw
      rw [collectHash_nodup fs (insertAll_perm hasc hpm).1] at this
      obtain ⟨cs', h1, h2⟩ := pointwise_perm (ho _) _ this
      rw [SameContent]
      exact ⟨es, cs', rfl, hasc, hpm.symm.trans h1, h2⟩
  | .tuple Ts, _, .tuple _ hs _ _ hd, hp, _, .tuple _ cs hl hc, hb, bs, hsp => by
    rw [Spells] at hsp
    rw [deTy]
    refine (takes_members env ho hm Ts hs hd (fun U hU => hp U (by simp [typeParts, hU])) cs hl hc
      (fun c hcm => hb.mono fun x hx => ?_) bs hsp).mono fun ws hws => by
        rw [SameContent]; exact ⟨cs, rfl, hws⟩
    simp only [parts, List.mem_cons, Body.mem_partsAll]
    exact .inr ⟨c, hcm, hx⟩
  | .struct name (.named fs), _, .struct _ _ hs _ hd, hp, _, .tuple _ cs hl hc, hb, bs, hsp => by
    have hsym : SymmetricFields fs := (hp _ (self_mem_typeParts _)).symmetric
    rw [Spells] at hsp
    rw [deTy]
    refine (takes_fields env ho hm fs hs hd (fun f hf => (hsym f hf).1)
      (hp _ (self_mem_typeParts _)).defaulted (fun U hU => hp U (by simp [typeParts, hU])) cs hl hc
      (fun c hcm => hb.mono fun x hx => ?_) bs hsp).mono fun ws hws => by
        rw [SameContent]; exact ⟨cs, rfl, hws⟩
    simp only [parts, List.mem_cons, Body.mem_partsAll]
    exact .inr ⟨c, hcm, hx⟩
  | .struct name (.unnamed fs), _, .struct _ _ hs _ hd, hp, _, .tuple _ cs hl hc, hb, bs, hsp => by
    rw [Spells] at hsp
    have hsym := (hp _ (self_mem_typeParts _)).symmetric
    have hf := takes_fields env ho hm fs hs hd (fun f hf => (hsym.1 f hf).1)
      (hp _ (self_mem_typeParts _)).defaulted (fun U hU => hp U (by simp [typeParts, hU])) cs hl hc
      (fun c hcm => hb.mono fun x hx => by
        simp only [parts, List.mem_cons, Body.mem_partsAll]
        exact .inr ⟨c, hcm, hx⟩) bs hsp
    refine Takes.mono (R := fun w => SameFields fs w cs) ?_ fun ws hws => by
      (try dsimp only); rw [SameContent]; exact ⟨cs, rfl, hws⟩
    match fs, hsym, hf with
    | [], _, hf => rw [deTy]; rw [deFields] at hf; exact hf
    | [.mk attrs n T], hsym, hf =>
      have hns : ¬ SkippedDe attrs := fun hc => hsym.2 rfl _ List.mem_cons_self
        ((hsym.1 _ List.mem_cons_self).1.mpr hc)
      rw [deFields, if_neg (by rw [deSkips_iff]; exact hns)] at hf
      rw [deTy]
      exact hf
    | f :: g :: fs, _, hf => rw [deTy]; exact hf
  | .struct name .unit, _, .struct _ _ hs _ hd, _, _, .tuple _ cs hl _, _, bs, hsp => by
    cases hd
    rw [List.length_nil, eq_comm, List.length_eq_zero_iff] at hl
    subst hl
    rw [Spells, SpellsAll] at hsp
    subst hsp
    rw [deTy]
    exact .pure (by (try dsimp only); rw [SameContent])
  | .enum name vs, _, .enum _ _ hs _ hd, hp, _, .enum _ i h c hi hc, hb, bs, hsp => by
    rw [Spells] at hsp
    obtain ⟨bs', rfl, hsp⟩ := hsp
    have hplain : ∀ v ∈ vs, ¬ Skipped (variantAttrs v) ∧
      ∀ f ∈ Spec.variantFields v, ¬ Skipped (fieldAttrs f) ∧ ¬ Conditional (fieldAttrs f) :=
      (hp _ (self_mem_typeParts _)).plain
    have hsym : vs.length ≤ 16384 ∧ ∀ v ∈ vs, ¬ Skipped (variantAttrs v) ∧
      ¬ SkippedDe (variantAttrs v) ∧ SymmetricFields (Spec.variantFields v) :=
      (hp _ (self_mem_typeParts _)).symmetric
    rw [List.filter_eq_self.mpr fun v hvm => decide_eq_true (hplain v hvm).1] at hd
    have hlt : i.toNat < hs.length := by
      have := List.getElem?_eq_some_iff.mp hi
      exact this.1
    have hlen := payloads_length hd
    rw [List.length_map] at hlen
    rw [deTy, De.varint_32_16 _ (by omega)]
    refine Takes.bind (R := fun n => n.toNat = i.toNat) ⟨UInt16.ofNat i.toNat, by
      (try dsimp only); rw [UInt16.toNat_ofNat']; omega, fun fin rest => by
        rw [De.deU16, De.exec_u16_varint _ _ _ (by omega)]⟩ fun n hn => ?_
    rw [hn]
    exact (takes_variant env ho hm vs hs hd hplain hsym.2
      (fun U hU => hp U (by simp [typeParts, hU])) 0 i.toNat h hi c hc
      (hb.mono fun x hx => by simp [parts, hx]) bs' hsp _).mono fun w hw => by
        rw [SameContent]; exact hw i (by omega)
theorem takes_members (env : Env) (ho : FairOrder env) (hm : 4096 ≤ t.memLimit) :
    (Ts : List RTy) → (hs : List Header) → DescribesAll Ts hs →
    (∀ U ∈ typePartsAll Ts, ReadPart env N D U) → (bs : List Body) → hs.length = bs.length →
    (∀ (i : Nat) (h : Header) (b : Body), hs[i]? = Option.some h → bs[i]? = Option.some b →
      Conforms h b) → (∀ b ∈ bs, BodyOk t mode N D b) → (xs : List UInt8) → SpellsAll bs xs →
    Takes t (deTuple t mode env Ts) xs fun ws => SameMembers Ts ws bs
  | [], _, .nil, _, [], _, _, _, xs, hx => by
    rw [SpellsAll] at hx
    subst hx
    rw [deTuple]; exact .pure (by rw [SameMembers])
  | [], _, .nil, _, _ :: _, hl, _, _, _, _ => by simp at hl
  | _ :: _, _, .cons _ _ _ _ _ _, _, [], hl, _, _, _, _ => by simp at hl
  | T :: Ts, _, .cons _ _ h hs hd hds, hp, b :: bs, hl, hc, hb, xs, hx => by
    rw [SpellsAll] at hx
    obtain ⟨x, y, rfl, h1, h2⟩ := hx
    rw [deTuple]
    exact (takes_body env ho hm T h hd (fun U hU => hp U (by simp [typePartsAll, hU])) b
      (hc 0 h b rfl rfl) (hb b List.mem_cons_self) x h1).bind fun w hw =>
      (takes_members env ho hm Ts hs hds (fun U hU => hp U (by simp [typePartsAll, hU])) bs
        (by simpa using hl)
        (fun i h' b' hi hj => hc (i + 1) h' b' (by simpa using hi) (by simpa using hj))
        (fun c hcm => hb c (List.mem_cons_of_mem _ hcm)) y h2).map fun ws hws => by
          rw [SameMembers]; exact ⟨b, bs, rfl, hw, hws⟩
theorem takes_fields (env : Env) (ho : FairOrder env) (hm : 4096 ≤ t.memLimit) :
    (fs : List RField) → (hs : List Header) → DescribesAll (serializedTypes fs) hs →
    (∀ f ∈ fs, Skipped (fieldAttrs f) ↔ SkippedDe (fieldAttrs f)) → DefaultedFields env fs →
    (∀ U ∈ typePartsFields fs, ReadPart env N D U) → (bs : List Body) → hs.length = bs.length →
    (∀ (i : Nat) (h : Header) (b : Body), hs[i]? = Option.some h → bs[i]? = Option.some b →
      Conforms h b) → (∀ b ∈ bs, BodyOk t mode N D b) → (xs : List UInt8) → SpellsAll bs xs →
    Takes t (deFields t mode env fs) xs fun ws => SameFields fs ws bs
  | [], _, .nil, _, _, _, [], _, _, _, xs, hx => by
    rw [SpellsAll] at hx
    subst hx
    rw [deFields]; exact .pure (by rw [SameFields])
  | [], _, .nil, _, _, _, _ :: _, hl, _, _, _, _ => by simp at hl
  | .mk attrs n T :: fs, hs, hd, hs', hf, hp, bs, hl, hc, hb, xs, hx => by
    have hrest := fun hs hd bs hl hc hb xs hx => takes_fields env ho hm fs hs hd
      (fun f hm => hs' f (List.mem_cons_of_mem _ hm)) (fun f hm => hf f (List.mem_cons_of_mem _ hm))
      (fun U hU => hp U (by simp [typePartsFields, hU])) bs hl hc hb xs hx
    have hiff := hs' _ List.mem_cons_self
    simp only [fieldAttrs] at hiff
    rw [deFields]
    by_cases hsk : Skipped attrs
    · rw [if_pos ((deSkips_iff attrs).mpr (hiff.mp hsk))]
      obtain ⟨v, hv⟩ : ∃ v, env.dflt attrs T = some v := hf _ List.mem_cons_self (hiff.mp hsk)
      rw [hv]
      have hd' : DescribesAll (serializedTypes fs) hs := by
        rw [serializedTypes, List.filter_cons_of_neg (by simp [fieldAttrs, hsk])] at hd
        exact hd
      exact (hrest hs hd' bs hl hc hb xs hx).map fun ws hws => by
        rw [SameFields, if_pos hsk]; exact hws
    · rw [if_neg (by rw [deSkips_iff, ← hiff]; exact hsk)]
      rw [serializedTypes, List.filter_cons_of_pos (by simp [fieldAttrs, hsk]), List.map_cons] at hd
      match hs, hd, bs, hl, hc, hb, hx with
      | h :: hs, .cons _ _ _ _ hd hds, [], hl, _, _, _ => simp at hl
      | h :: hs, .cons _ _ _ _ hd hds, b :: bs, hl, hc, hb, hx =>
        rw [SpellsAll] at hx
        obtain ⟨x, y, rfl, h1, h2⟩ := hx
        exact (takes_body env ho hm T h hd (fun U hU => hp U
          (by simp [typePartsFields, hsk, hU])) b (hc 0 h b rfl rfl) (hb b List.mem_cons_self) x h1).bind
          fun w hw => (hrest hs hds bs (by simpa using hl)
            (fun i h' b' hi hj => hc (i + 1) h' b' (by simpa using hi) (by simpa using hj))
            (fun c hcm => hb c (List.mem_cons_of_mem _ hcm)) y h2).map fun ws hws => by
              rw [SameFields, if_neg hsk]; exact ⟨b, bs, rfl, hw, hws⟩
theorem takes_payload (env : Env) (ho : FairOrder env) (hm : 4096 ≤ t.memLimit) :
    (fs : List RField) → (h : Header) → DescribesPayload (fs.map fieldType) h →
    (∀ f ∈ fs, ¬ Skipped (fieldAttrs f)) →
    (∀ f ∈ fs, Skipped (fieldAttrs f) ↔ SkippedDe (fieldAttrs f)) →
    (∀ U ∈ typePartsFields fs, ReadPart env N D U) → (b : Body) → Conforms h b →
    BodyOk t mode N D b → (xs : List UInt8) → Spells b xs →
    Takes t (deFields t mode env fs) xs fun w => SamePayload fs w b
  | [], h, hd, _, _, _, b, hc, _, xs, hx => by
    have hu : h = .unit := describesPayload_unique hd .none
    subst hu
    cases hc
    obtain rfl : xs = [] := by simpa [Spells, bodyWire] using hx
    rw [deFields]
    exact .pure (by rw [SamePayload])
  | [.mk attrs n T], h, hd, hns, hs, hp, b, hc, hb, xs, hx => by
    have hsk : ¬ Skipped attrs := hns _ List.mem_cons_self
    have hiff : Skipped attrs ↔ SkippedDe attrs := hs _ List.mem_cons_self
    have hT : Describes T h := by
      cases hd with
      | one _ _ hd => exact hd
      | many _ _ h2 _ => simp at h2
    rw [deFields, if_neg (by rw [deSkips_iff, ← hiff]; exact hsk), deFields]
    exact (takes_body env ho hm T h hT (fun U hU => hp U
      (by simp [typePartsFields, hsk, hU])) b hc hb xs hx).map fun w hw => by rw [SamePayload]; exact hw
  | f :: g :: fs, h, hd, hns, hs, hp, b, hc, hb, xs, hx => by
    cases hd with
    | many _ hs' _ hd =>
      cases hc with
      | tuple _ bs hl hc =>
      rw [← serializedTypes_all hns] at hd
      rw [Spells] at hx
      refine (takes_fields env ho hm (f :: g :: fs) hs' hd hs
        (fun x hx hd => absurd ((hs x hx).mpr hd) (hns x hx)) hp bs hl hc
        (fun c hcm => hb.mono fun x hx => ?_) xs hx).mono fun ws hws => by
          rw [SamePayload]; exact ⟨bs, rfl, hws⟩
      simp only [parts, List.mem_cons, Body.mem_partsAll]
      exact .inr ⟨c, hcm, hx⟩
theorem takes_variant (env : Env) (ho : FairOrder env) (hm : 4096 ≤ t.memLimit) :
    (vs : List RVariant) → (hs : List Header) →
    DescribesPayloads (vs.map fun v => (Spec.variantFields v).map fieldType) hs →
    (∀ v ∈ vs, ¬ Skipped (variantAttrs v) ∧
      ∀ f ∈ Spec.variantFields v, ¬ Skipped (fieldAttrs f) ∧ ¬ Conditional (fieldAttrs f)) →
    (∀ v ∈ vs, ¬ Skipped (variantAttrs v) ∧ ¬ SkippedDe (variantAttrs v) ∧
      SymmetricFields (Spec.variantFields v)) →
    (∀ U ∈ typePartsVariants vs, ReadPart env N D U) → (i n : Nat) → (h : Header) →
    hs[n]? = Option.some h → (b : Body) → Conforms h b → BodyOk t mode N D b →
    (xs : List UInt8) → Spells b xs → (idx : Nat) →
    Takes t (deVariant t mode env idx n vs) xs fun w =>
      ∀ k : UInt32, k.toNat = i + n → SameVariant i vs w (.enum k b)
  | [], _, .nil, _, _, _, i, n, h, hn, _, _, _, _, _, _ => by simp at hn
  | .mk attrs vn fields :: vs, _, .cons _ _ h hs hd hds, hns, hsy, hp, i, 0, h', hn, b, hc, hb, xs, hx, idx => by
    have he : h = h' := by simpa using hn
    subst he
    have hsk : ¬ SkippedDe attrs := (hsy _ List.mem_cons_self).2.1
    have h1 : ∀ f ∈ declared fields, ¬ Skipped (fieldAttrs f) := fun f hf =>
      ((hns _ List.mem_cons_self).2 f hf).1
    have h2 : ∀ f ∈ declared fields, Skipped (fieldAttrs f) ↔ SkippedDe (fieldAttrs f) := fun f hf =>
      ((hsy _ List.mem_cons_self).2.2 f hf).1
    rw [deVariant_zero t mode env hsk]
    cases fields with
    | named fs =>
      rw [dePayload]
      exact (takes_payload env ho hm fs h hd h1 h2 (fun U hU => hp U
        (by simp [typePartsVariants, hU])) b hc hb xs hx).map fun w hw k hk => by
          rw [SameVariant]; exact ⟨k, b, rfl, hk, hw⟩
    | unnamed fs =>
      rw [dePayload]
      exact (takes_payload env ho hm fs h hd h1 h2 (fun U hU => hp U
        (by simp [typePartsVariants, hU])) b hc hb xs hx).map fun w hw k hk => by
          rw [SameVariant]; exact ⟨k, b, rfl, hk, hw⟩
    | unit =>
      have hu : h = .unit := describesPayload_unique hd .none
      subst hu
      cases hc
      obtain rfl : xs = [] := by simpa [Spells, bodyWire] using hx
      rw [dePayload]
      exact Takes.pure fun k hk => by rw [SameVariant]; exact ⟨k, _, rfl, hk, rfl⟩
  | .mk attrs vn fields :: vs, _, .cons _ _ h hs hd hds, hns, hsy, hp, i, n + 1, h', hn, b, hc, hb, xs, hx, idx => by
    have hsk : ¬ SkippedDe attrs := (hsy _ List.mem_cons_self).2.1
    rw [deVariant_succ t mode env n hsk]
    exact (takes_variant env ho hm vs hs hds (fun v hv => hns v (by simp [hv]))
      (fun v hv => hsy v (by simp [hv]))
      (fun U hU => hp U (by cases fields <;> simp [typePartsVariants, hU])) (i + 1) n h'
      (by simpa using hn) b hc hb xs hx idx).map fun w hw k hk => by
        rw [SameVariant]; exact hw k (by omega)
end

mutual
theorem spells_wire : (b : Body) → Spells b (bodyWire b)
  | .some b => by rw [Spells, bodyWire]; exact ⟨_, rfl, spells_wire b⟩
  | .array bs => by rw [Spells, bodyWire]; exact ⟨_, rfl, spellsAll_wire bs⟩
  | .tuple bs => by rw [Spells, bodyWire]; exact spellsAll_wire bs
  | .map es => by
    obtain ⟨ks, h1, h2⟩ := spellsEntries_wire es
    rw [Spells, bodyWire]
    exact ⟨ks, ks, h1, .refl _, by rw [h2]⟩
  | .enum i b => by rw [Spells, bodyWire]; exact ⟨_, rfl, spells_wire b⟩
  | .unit | .none | .boolean _ | .uint8 _ | .uint16 _ | .uint32 _ | .uint64 _ | .int8 _ | .int16 _
  | .int32 _ | .int64 _ | .float32 _ | .float64 _ | .bigUInt _ | .bigInt _ | .bigDecimal _
  | .string _ | .binary _ | .date _ | .dateTime _ => by simp [Spells]
theorem spellsAll_wire : (bs : List Body) → SpellsAll bs (bodiesWire bs)
  | [] => by rw [SpellsAll, bodiesWire]
  | b :: bs => by
    rw [SpellsAll, bodiesWire]; exact ⟨_, _, rfl, spells_wire b, spellsAll_wire bs⟩
theorem spellsEntries_wire : (es : List (String × Body)) → ∃ ks, SpellsEntries es ks ∧
    entriesWire es = (ks.map fun k => block (utf8 k.1) ++ k.2).flatten
  | [] => ⟨[], by rw [SpellsEntries], by rw [entriesWire]; rfl⟩
  | (k, b) :: es => by
    obtain ⟨ks, h1, h2⟩ := spellsEntries_wire es
    refine ⟨(k, bodyWire b) :: ks, ?_, ?_⟩
    · rw [SpellsEntries]; exact ⟨_, _, rfl, spells_wire b, h1⟩
    · rw [entriesWire, h2, List.map_cons, List.flatten_cons]
end

end

end Derive
end Dlhn
