import Verif.Proof.Body
import Verif.Proof.BTree
import Verif.Proof.DeHas
/-! # The dynamic decoder -/
namespace Dlhn.Body

open Spec PrefixVarint

/-! ## Round trip -/

/-- All conditions under which a body survives the round trip. -/
structure Good (t : Target) (mode : BuildMode) (size : Nat) (b : Body) : Prop where
  exist : Exists t b
  clean : CleanDecimals b
  dates : DatesFit mode b
  vectors : VectorsFit t size b

theorem Good.mono {t : Target} {mode : BuildMode} {size : Nat} {b c : Body}
    (hb : Good t mode size b) (h : ∀ x ∈ parts c, x ∈ parts b) : Good t mode size c where
  exist := fun x hx => hb.exist x (h x hx)
  clean := fun v hv => hb.clean v (h _ hv)
  dates := fun e d hd => hb.dates e d (h _ hd)
  vectors := fun bs hbs => hb.vectors bs (hbs.imp (h _) (h _))

/-- Conversely, a body is good if it is good itself and its direct parts are. -/
theorem Good.of_parts {t : Target} {mode : BuildMode} {size : Nat} {b : Body}
    (h : ∀ c ∈ parts b, c = b ∨ ∃ d, c ∈ parts d ∧ Good t mode size d)
    (h1 : LengthsFit t b) (h2 : ∀ es, b = .map es → Ascending es)
    (h3 : ∀ v, b = .bigDecimal v → v.signedBytes = [] → v.scale = 0)
    (h4 : ∀ d, b = .date d → mode = .debug → DateFits d)
    (h5 : ∀ bs, b = .array bs ∨ b = .tuple bs → t.allocate (bs.length * size) = Option.none) :
    Good t mode size b where
  exist := fun x hx => by
    rcases h x hx with rfl | ⟨d, hd, hg⟩
    · exact ⟨h1, h2⟩
    · exact hg.exist x hd
  clean := fun v hv => by
    rcases h _ hv with he | ⟨d, hd, hg⟩
    · exact h3 v he.symm
    · exact hg.clean v hd
  dates := fun e d hd => by
    rcases h _ hd with he | ⟨d', hd', hg⟩
    · exact h4 d he.symm e
    · exact hg.dates e d hd'
  vectors := fun bs hbs => by
    rcases hbs with hbs | hbs
    · rcases h _ hbs with he | ⟨d', hd', hg⟩
      · exact h5 bs (.inl he.symm)
      · exact hg.vectors bs (.inl hd')
    · rcases h _ hbs with he | ⟨d', hd', hg⟩
      · exact h5 bs (.inr he.symm)
      · exact hg.vectors bs (.inr hd')

theorem bodiesWire_eq (bs : List Body) : bodiesWire bs = (bs.map bodyWire).flatten := by
  induction bs with
  | nil => simp [bodiesWire]
  | cons b bs ih => simp [bodiesWire, ih]

theorem entriesWire_eq (es : List (String × Body)) :
    entriesWire es = (es.map fun e => block (utf8 e.1) ++ bodyWire e.2).flatten := by
  induction es with
  | nil => simp [entriesWire]
  | cons e es ih => obtain ⟨k, b⟩ := e; simp [entriesWire, ih]

theorem exec_insertLoop (t : Target) (fin : Ending) (p : Prog DeErr Body)
    (es m : List (String × Body)) (rest : List UInt8)
    (hk : ∀ e ∈ es, (utf8 e.1).length < 2 ^ t.ptr.bits)
    (h : ∀ e ∈ es, ∀ r, Prog.exec t fin p (bodyWire e.2 ++ r) = .ok (e.2, r)) :
    Prog.exec t fin (insertLoop t p es.length m) (entriesWire es ++ rest) =
      .ok (insertAll m es, rest) := by
  induction es generalizing m with
  | nil => simp [insertLoop, entriesWire, insertAll, Prog.exec]
  | cons e es ih =>
    obtain ⟨k, b⟩ := e
    rw [List.length_cons, insertLoop, entriesWire, Prog.bind_eq, Prog.exec_bind, List.append_assoc,
      List.append_assoc, De.deString_block _ _ _ (hk (k, b) (by simp)), Prog.next_ok, Prog.bind_eq,
      Prog.exec_bind, h (k, b) (by simp), Prog.next_ok,
      ih _ (fun e he => hk e (by simp [he])) fun e he => h e (by simp [he])]
    rfl

theorem exec_alloc (t : Target) (fin : Ending) (n : Nat) (h : t.allocate n = Option.none)
    {α : Type} (p : Prog DeErr α) (bs : List UInt8) :
    Prog.exec t fin (.alloc n p) bs = Prog.exec t fin p bs := by
  rw [Prog.exec, h]

mutual
theorem de_wire (t : Target) (mode : BuildMode) (size : Nat) (hm : 4096 ≤ t.memLimit) :
    (h : Header) → (b : Body) → Conforms h b → Good t mode size b → (fin : Ending) →
    (rest : List UInt8) →
    Prog.exec t fin (de t mode size h) (bodyWire b ++ rest) = .ok (b, rest)
  | .optional h, b, hc, hg, fin, rest => by
    rw [de, Prog.bind_eq, Prog.exec_bind]
    cases hc with
    | none =>
      rw [bodyWire]
      have := De.deBool_byte t fin false rest
      simp only [Bool.false_eq_true, if_false] at this
      rw [List.singleton_append, this]
      rfl
    | some _ c hc =>
      rw [bodyWire]
      have := De.deBool_byte t fin true (bodyWire c ++ rest)
      simp only [if_true] at this
      rw [List.cons_append, this, Prog.next_ok, if_pos rfl]
      exact De.exec_wrap t fin _ Body.some _ _ _ (de_wire t mode size hm h c hc
        (hg.mono fun x hx => by simp [parts, hx]) fin rest)
  | .array h, b, hc, hg, fin, rest => by
    cases hc with
    | array _ bs hc =>
      have hl : bs.length < 2 ^ t.ptr.bits := (hg.exist _ (self_mem_parts _)).1
      have h64 := De.lt_64_of_lt_bits hl
      have ha := hg.vectors bs (.inl (self_mem_parts _))
      rw [de, Prog.bind_eq, Prog.exec_bind, bodyWire, List.append_assoc, De.deU64,
        De.exec_u64_varint _ _ _ h64, Prog.next_ok, De.asUsize_ofNat hl, exec_alloc _ _ _ ha,
        UInt64.toNat_ofNat', Nat.mod_eq_of_lt h64, bodiesWire_eq]
      refine De.exec_wrap t fin _ Body.array _ _ _ (De.exec_times t fin _ bodyWire bs rest
        fun b hb r => de_wire t mode size hm h b (hc b hb) (hg.mono fun x hx => ?_) fin r)
      simp only [parts, List.mem_cons, mem_partsAll]
      exact .inr ⟨b, hb, hx⟩
  | .tuple hs, b, hc, hg, fin, rest => by
    cases hc with
    | tuple _ bs hl hc =>
      have ha := hg.vectors bs (.inr (self_mem_parts _))
      rw [de, bodyWire, hl, exec_alloc _ _ _ ha]
      refine De.exec_wrap t fin _ Body.tuple _ _ _ (deAll_wire t mode size hm hs bs hl hc
        (fun b hb => hg.mono fun x hx => ?_) fin rest)
      simp only [parts, List.mem_cons, mem_partsAll]
      exact .inr ⟨b, hb, hx⟩
  | .map h, b, hc, hg, fin, rest => by
    cases hc with
    | map _ es hc =>
      have hl := (hg.exist _ (self_mem_parts _)).1
      have h64 := De.lt_64_of_lt_bits hl.1
      have hs := insertAll_ascending es [] ((hg.exist _ (self_mem_parts _)).2 es rfl)
      rw [de, Prog.bind_eq, Prog.exec_bind, bodyWire, List.append_assoc, De.deU64,
        De.exec_u64_varint _ _ _ h64, Prog.next_ok, UInt64.toNat_ofNat', Nat.mod_eq_of_lt h64]
      refine De.exec_wrap t fin _ Body.map _ _ _ ?_
      rw [exec_insertLoop t fin _ es [] rest hl.2 fun e he r => de_wire t mode size hm h e.2
        (hc e he) (hg.mono fun x hx => ?_) fin r, hs, List.nil_append]
      simp only [parts, List.mem_cons, mem_partsEntries]
      exact .inr ⟨e, he, hx⟩
  | .enum hs, b, hc, hg, fin, rest => by
    cases hc with
    | enum _ i h b hi hc =>
      rw [de, Prog.bind_eq, Prog.exec_bind, bodyWire, List.append_assoc, De.deU32,
        De.exec_u32_varint _ _ _ (UInt32.toNat_lt _), Prog.next_ok, UInt32.ofNat_toNat]
      exact De.exec_wrap t fin _ (Body.enum i) _ _ _ (deNth_wire t mode size hm hs i.toNat h b hi hc
        (hg.mono fun x hx => by simp [parts, hx]) fin rest)
  | .unit, b, hc, hg, fin, rest => by cases hc; rw [de, bodyWire]; rfl
  | .boolean, b, hc, hg, fin, rest => by
    cases hc; rw [de, bodyWire]
    exact De.exec_wrap t fin _ Body.boolean _ _ _ (De.deBool_byte t fin _ rest)
  | .uint8, b, hc, hg, fin, rest => by
    cases hc; rw [de, bodyWire]
    exact De.exec_wrap t fin _ Body.uint8 _ _ _ (De.deU8_wire t fin _ rest)
  | .uint16, b, hc, hg, fin, rest => by
    cases hc with
    | uint16 v =>
      rw [de, bodyWire]
      refine De.exec_wrap t fin _ Body.uint16 _ _ _ ?_
      rw [De.deU16, De.exec_u16_varint _ _ _ (UInt16.toNat_lt _), UInt16.ofNat_toNat]
  | .uint32, b, hc, hg, fin, rest => by
    cases hc with
    | uint32 v =>
      rw [de, bodyWire]
      refine De.exec_wrap t fin _ Body.uint32 _ _ _ ?_
      rw [De.deU32, De.exec_u32_varint _ _ _ (UInt32.toNat_lt _), UInt32.ofNat_toNat]
  | .uint64, b, hc, hg, fin, rest => by
    cases hc with
    | uint64 v =>
      rw [de, bodyWire]
      refine De.exec_wrap t fin _ Body.uint64 _ _ _ ?_
      rw [De.deU64, De.exec_u64_varint _ _ _ (UInt64.toNat_lt _), UInt64.ofNat_toNat]
  | .int8, b, hc, hg, fin, rest => by
    cases hc; rw [de, bodyWire]
    exact De.exec_wrap t fin _ Body.int8 _ _ _ (De.deI8_wire t fin _ rest)
  | .int16, b, hc, hg, fin, rest => by
    cases hc; rw [de, bodyWire]
    exact De.exec_wrap t fin _ Body.int16 _ _ _ (De.deI16_wire t fin _ rest)
  | .int32, b, hc, hg, fin, rest => by
    cases hc; rw [de, bodyWire]
    exact De.exec_wrap t fin _ Body.int32 _ _ _ (De.deI32_wire t fin _ rest)
  | .int64, b, hc, hg, fin, rest => by
    cases hc; rw [de, bodyWire]
    exact De.exec_wrap t fin _ Body.int64 _ _ _ (De.deI64_wire t fin _ rest)
  | .float32, b, hc, hg, fin, rest => by
    cases hc; rw [de, bodyWire]
    exact De.exec_wrap t fin _ Body.float32 _ _ _ (De.deF32_wire t fin _ rest)
  | .float64, b, hc, hg, fin, rest => by
    cases hc; rw [de, bodyWire]
    exact De.exec_wrap t fin _ Body.float64 _ _ _ (De.deF64_wire t fin _ rest)
  | .bigUInt, b, hc, hg, fin, rest => by
    cases hc; rw [de, bodyWire]
    exact De.exec_wrap t fin _ Body.bigUInt _ _ _ (BigUint.exec_de t fin _
      (hg.exist _ (self_mem_parts _)).1 rest)
  | .bigInt, b, hc, hg, fin, rest => by
    cases hc; rw [de, bodyWire]
    exact De.exec_wrap t fin _ Body.bigInt _ _ _ (BigInt.exec_de t fin _
      (hg.exist _ (self_mem_parts _)).1 rest)
  | .bigDecimal, b, hc, hg, fin, rest => by
    cases hc; rw [de, bodyWire]
    exact De.exec_wrap t fin _ Body.bigDecimal _ _ _ (BigDecimal.exec_de t fin _
      (hg.exist _ (self_mem_parts _)).1 (hg.clean _ (self_mem_parts _)) rest)
  | .string, b, hc, hg, fin, rest => by
    cases hc; rw [de, bodyWire]
    exact De.exec_wrap t fin _ Body.string _ _ _ (De.deString_block t fin _
      (hg.exist _ (self_mem_parts _)).1 rest)
  | .binary, b, hc, hg, fin, rest => by
    cases hc; rw [de, bodyWire]
    exact De.exec_wrap t fin _ Body.binary _ _ _ (De.deByteBuf_block t hm fin _ rest
      (hg.exist _ (self_mem_parts _)).1)
  | .date, b, hc, hg, fin, rest => by
    cases hc; rw [de, bodyWire]
    exact De.exec_wrap t fin _ Body.date _ _ _ (Date.exec_de t fin mode _
      (fun e => hg.dates e _ (self_mem_parts _)) rest)
  | .dateTime, b, hc, hg, fin, rest => by
    cases hc; rw [de, bodyWire]
    exact De.exec_wrap t fin _ Body.dateTime _ _ _ (DateTime.exec_de t fin _ rest)
theorem deAll_wire (t : Target) (mode : BuildMode) (size : Nat) (hm : 4096 ≤ t.memLimit) :
    (hs : List Header) → (bs : List Body) → hs.length = bs.length →
    (∀ (i : Nat) (h : Header) (b : Body), hs[i]? = Option.some h → bs[i]? = Option.some b →
      Conforms h b) → (∀ b ∈ bs, Good t mode size b) → (fin : Ending) → (rest : List UInt8) →
    Prog.exec t fin (deAll t mode size hs) (bodiesWire bs ++ rest) = .ok (bs, rest)
  | [], [], _, _, _, fin, rest => by rw [deAll, bodiesWire]; rfl
  | [], _ :: _, hl, _, _, _, _ => by simp at hl
  | _ :: _, [], hl, _, _, _, _ => by simp at hl
  | h :: hs, b :: bs, hl, hc, hg, fin, rest => by
    rw [deAll, bodiesWire, Prog.bind_eq, Prog.exec_bind, List.append_assoc,
      de_wire t mode size hm h b (hc 0 h b rfl rfl) (hg b (by simp)), Prog.next_ok]
    refine De.exec_wrap t fin _ (b :: ·) _ _ _ (deAll_wire t mode size hm hs bs (by simpa using hl)
      (fun i h' b' hi hj => hc (i + 1) h' b' (by simpa using hi) (by simpa using hj))
      (fun x hx => hg x (by simp [hx])) fin rest)
theorem deNth_wire (t : Target) (mode : BuildMode) (size : Nat) (hm : 4096 ≤ t.memLimit) :
    (hs : List Header) → (n : Nat) → (h : Header) → (b : Body) → hs[n]? = Option.some h →
    Conforms h b → Good t mode size b → (fin : Ending) → (rest : List UInt8) →
    Prog.exec t fin (deNth t mode size n hs) (bodyWire b ++ rest) = .ok (b, rest)
  | [], _, _, _, hi, _, _, _, _ => by simp at hi
  | h :: _, 0, h', b, hi, hc, hg, fin, rest => by
    simp at hi
    subst hi
    rw [deNth]
    exact de_wire t mode size hm h b hc hg fin rest
  | _ :: hs, n + 1, h', b, hi, hc, hg, fin, rest => by
    rw [deNth]
    exact deNth_wire t mode size hm hs n h' b (by simpa using hi) hc hg fin rest
end

end Dlhn.Body
