import Verif.Model.De
import Verif.Spec.Wire
import Verif.Proof.VarintSpec
import Verif.Proof.ZigZag
/-! # The deserializer inverts the specified encoding -/
namespace Dlhn.De

open PrefixVarint Spec

variable {α : Type}

/-! ## Primitive reads -/

theorem exec_readBytes (t : Target) (fin : Ending) (n : Nat) (bs : List UInt8) :
    Prog.exec t fin (readBytes n) bs =
      if h : n ≤ bs.length then .ok (takeVec bs h, bs.drop n) else .err .read := by
  simp only [readBytes, Prog.exec]
  split <;> rfl

theorem toList_takeVec {n : Nat} (bs : List UInt8) (h : n ≤ bs.length) :
    (takeVec bs h).toList = bs.take n := by
  simp [takeVec, Vector.toList]

theorem exec_readBytes_append (t : Target) (fin : Ending) (n : Nat) (bs rest : List UInt8)
    (hn : bs.length = n) :
    ∃ v : Vector UInt8 n, v.toList = bs ∧
      Prog.exec t fin (readBytes n) (bs ++ rest) = .ok (v, rest) := by
  subst hn
  rw [exec_readBytes, dif_pos (by simp)]
  refine ⟨takeVec (bs ++ rest) (by simp), ?_, ?_⟩
  · rw [toList_takeVec]; simp
  · simp

/-- Result of a varint read as seen by the deserializer. -/
def ofDec (conv : Nat → α) : Option (Nat × List UInt8) → Outcome DeErr (α × List UInt8)
  | some (v, r) => .ok (conv v, r)
  | none => .err .read

theorem mapErr_ofSpec (conv : Nat → α) (fin : Ending) (o : Option (Nat × List UInt8)) :
    (ofSpec conv fin o).mapErr orRead = ofDec conv o := by
  cases o <;> rfl

theorem exec_u16 (t : Target) (fin : Ending) (bs : List UInt8) :
    Prog.exec t fin (io decodeU16) bs = ofDec UInt16.ofNat (varintDecode 16 bs) := by
  rw [io, Prog.exec_mapErr, exec_decodeU16, mapErr_ofSpec]
theorem exec_u32 (t : Target) (fin : Ending) (bs : List UInt8) :
    Prog.exec t fin (io decodeU32) bs = ofDec UInt32.ofNat (varintDecode 32 bs) := by
  rw [io, Prog.exec_mapErr, exec_decodeU32, mapErr_ofSpec]
theorem exec_u64 (t : Target) (fin : Ending) (bs : List UInt8) :
    Prog.exec t fin (io decodeU64) bs = ofDec UInt64.ofNat (varintDecode 64 bs) := by
  rw [io, Prog.exec_mapErr, exec_decodeU64, mapErr_ofSpec]

theorem exec_u16_varint (t : Target) (fin : Ending) (n : Nat) (h : n < 2 ^ 16) (rest : List UInt8) :
    Prog.exec t fin (io decodeU16) (varint 16 n ++ rest) = .ok (UInt16.ofNat n, rest) := by
  rw [exec_u16, varintDecode_varint 16 n (by simp) h, ofDec]
theorem exec_u32_varint (t : Target) (fin : Ending) (n : Nat) (h : n < 2 ^ 32) (rest : List UInt8) :
    Prog.exec t fin (io decodeU32) (varint 32 n ++ rest) = .ok (UInt32.ofNat n, rest) := by
  rw [exec_u32, varintDecode_varint 32 n (by simp) h, ofDec]
theorem exec_u64_varint (t : Target) (fin : Ending) (n : Nat) (h : n < 2 ^ 64) (rest : List UInt8) :
    Prog.exec t fin (io decodeU64) (varint 64 n ++ rest) = .ok (UInt64.ofNat n, rest) := by
  rw [exec_u64, varintDecode_varint 64 n (by simp) h, ofDec]

/-! ## Strings and byte buffers -/

theorem fromUtf8_utf8 (s : String) : fromUtf8 (utf8 s) = some s := by
  have h : (⟨(utf8 s).toArray⟩ : ByteArray) = s.toByteArray := by simp [utf8]
  rw [fromUtf8, h, String.fromUTF8?, dif_pos s.isValidUTF8]
  rfl

theorem utf8_of_fromUtf8 {bs : List UInt8} {s : String} (h : fromUtf8 bs = some s) : utf8 s = bs := by
  simp only [fromUtf8, String.fromUTF8?] at h
  split at h
  · simp only [Option.some.injEq] at h
    subst h
    rfl
  · simp at h

theorem bits_le (t : Target) : t.ptr.bits ≤ 64 := by cases t.ptr <;> simp [PtrWidth.bits]

theorem lt_64_of_lt_bits {t : Target} {n : Nat} (h : n < 2 ^ t.ptr.bits) : n < 2 ^ 64 :=
  Nat.lt_of_lt_of_le h (Nat.pow_le_pow_right (by omega) (bits_le t))

theorem asUsize_ofNat {t : Target} {n : Nat} (h : n < 2 ^ t.ptr.bits) :
    t.asUsize (UInt64.ofNat n) = n := by
  rw [Target.asUsize, UInt64.toNat_ofNat', Nat.mod_eq_of_lt (lt_64_of_lt_bits h), Nat.mod_eq_of_lt h]

theorem deString_block (t : Target) (fin : Ending) (s : String)
    (h : (utf8 s).length < 2 ^ t.ptr.bits) (rest : List UInt8) :
    Prog.exec t fin (deString t) (block (utf8 s) ++ rest) = .ok (s, rest) := by
  have h64 := lt_64_of_lt_bits h
  have hlen : (UInt64.ofNat (utf8 s).length).toNat = (utf8 s).length := by
    rw [UInt64.toNat_ofNat', Nat.mod_eq_of_lt h64]
  rw [deString, Prog.bind_eq, Prog.exec_bind, block, List.append_assoc, exec_u64_varint t fin _ h64,
    Prog.next_ok]
  split
  · obtain ⟨v, hv1, hv2⟩ := exec_readBytes_append t fin (UInt64.ofNat (utf8 s).length).toNat
      (utf8 s) rest hlen.symm
    rw [Prog.bind_eq, Prog.exec_bind, hv2, Prog.next_ok, hv1, fromUtf8_utf8]
    rfl
  · simp only [Prog.exec, hlen]
    rw [if_pos (by simp), List.take_left', List.drop_left', fromUtf8_utf8]
    · simp [asUsize_ofNat h, Prog.exec]
    · rfl
    · rfl

theorem exec_byteBufLoop (t : Target) (fin : Ending) (len fuel : Nat) (result bs : List UInt8)
    (hf : len < fuel + result.length) (hr : result.length ≤ len) :
    Prog.exec t fin (byteBufLoop len len fuel result result.length) bs =
      if len - result.length ≤ bs.length then
        .ok (result ++ bs.take (len - result.length), bs.drop (len - result.length))
      else .err .read := by
  induction fuel generalizing result bs with
  | zero => omega
  | succ fuel ih =>
    rw [byteBufLoop]
    by_cases hlt : result.length < len
    · rw [if_pos hlt, Prog.bind_eq, Prog.exec_bind, exec_readBytes]
      by_cases hm : min 4096 (len - result.length) ≤ bs.length
      · rw [dif_pos hm, Prog.next_ok]
        have hl : (result ++ (takeVec bs hm).toList).length
            = result.length + min 4096 (len - result.length) := by
          rw [toList_takeVec, List.length_append, List.length_take]; omega
        rw [← hl, ih _ _ (by omega) (by omega), toList_takeVec]
        rw [toList_takeVec] at hl
        simp only [List.length_drop, hl]
        by_cases hle : len - result.length ≤ bs.length
        · rw [if_pos (by omega), if_pos hle, List.append_assoc]
          congr 2
          · congr 1
            have hsum : len - result.length = min 4096 (len - result.length) +
              (len - (result.length + min 4096 (len - result.length))) := by omega
            have htake := List.take_add (l := bs) (i := min 4096 (len - result.length))
              (j := len - (result.length + min 4096 (len - result.length)))
            rw [← hsum] at htake
            exact htake.symm
          · rw [List.drop_drop]
            congr 1
            omega
        · rw [if_neg (by omega), if_neg hle]
      · rw [dif_neg hm, if_neg (by omega)]
        rfl
    · have : len - result.length = 0 := by omega
      rw [if_neg hlt, this]
      simp [Prog.exec]

theorem allocate_ok {t : Target} (hm : 4096 ≤ t.memLimit) {n : Nat} (h : n ≤ 4096) :
    t.allocate n = none := by
  have : 4096 ≤ t.isizeMax := by
    unfold Target.isizeMax
    cases t.ptr <;> simp [PtrWidth.bits]
  unfold Target.allocate
  rw [if_neg (by omega), if_neg (by omega)]

theorem deByteBuf_block (t : Target) (hm : 4096 ≤ t.memLimit) (fin : Ending) (bs rest : List UInt8)
    (h : bs.length < 2 ^ t.ptr.bits) :
    Prog.exec t fin (deByteBuf t) (block bs ++ rest) = .ok (bs, rest) := by
  have h64 := lt_64_of_lt_bits h
  have hlen : (UInt64.ofNat bs.length).toNat = bs.length := by
    rw [UInt64.toNat_ofNat', Nat.mod_eq_of_lt h64]
  rw [deByteBuf, Prog.bind_eq, Prog.exec_bind, block, List.append_assoc, exec_u64_varint t fin _ h64,
    Prog.next_ok]
  split
  · rw [Prog.exec, allocate_ok hm (by omega)]
    simp only [hlen, asUsize_ofNat h]
    have := exec_byteBufLoop t fin bs.length (bs.length + 1) [] (bs ++ rest) (by simp) (by simp)
    simpa using this
  · rename_i hle
    have hle' : bs.length ≤ 4096 := by
      have : ¬ (4096 : UInt64).toNat < (UInt64.ofNat bs.length).toNat := hle
      rw [hlen] at this
      exact Nat.not_lt.mp this
    rw [Prog.exec, hlen, allocate_ok hm hle']
    simp only
    obtain ⟨v, hv1, hv2⟩ := exec_readBytes_append t fin bs.length bs rest rfl
    rw [Prog.bind_eq, Prog.exec_bind, hv2, Prog.next_ok, hv1]
    rfl

/-! ## Composite decoders -/

theorem exec_times (t : Target) (fin : Ending) (p : Prog DeErr α) (enc : α → List UInt8)
    (as : List α) (rest : List UInt8)
    (h : ∀ a ∈ as, ∀ r, Prog.exec t fin p (enc a ++ r) = .ok (a, r)) :
    Prog.exec t fin (times as.length p) ((as.map enc).flatten ++ rest) = .ok (as, rest) := by
  induction as with
  | nil => rfl
  | cons a as ih =>
    simp only [List.length_cons, times, List.map_cons, List.flatten_cons, List.append_assoc]
    rw [Prog.bind_eq, Prog.exec_bind, h a List.mem_cons_self, Prog.next_ok, Prog.bind_eq,
      Prog.exec_bind, ih fun b hb => h b (List.mem_cons_of_mem _ hb), Prog.next_ok]
    rfl

theorem wireAll_eq (vs : List Val) : wireAll vs = (vs.map wire).flatten := by
  induction vs with
  | nil => rfl
  | cons v vs ih => simp [wireAll, ih]

theorem wireEntries_eq (es : List (Val × Val)) :
    wireEntries es = (es.map fun e => wire e.1 ++ wire e.2).flatten := by
  induction es with
  | nil => rfl
  | cons e es ih => obtain ⟨k, v⟩ := e; simp [wireEntries, ih]

theorem varint_32_16 (n : Nat) (h : n < 16384) : varint 32 n = varint 16 n := by
  have : groups n ≤ 2 := (groups_le_iff 1 n).mpr h
  simp only [varint]
  rw [if_pos (by omega), if_pos (by omega)]

theorem deBool_byte (t : Target) (fin : Ending) (b : Bool) (rest : List UInt8) :
    Prog.exec t fin deBool ((if b then 1 else 0) :: rest) = .ok (b, rest) := by
  cases b <;> simp [deBool, Prog.exec_bind, exec_readBytes, Prog.exec, takeVec]

theorem u32le_leBytes (bits : UInt32) (v : Vector UInt8 4) (h : v.toList = leBytes 4 bits.toNat) :
    u32le v[0] v[1] v[2] v[3] = bits := by
  have := leValue_vec4 v
  rw [h, leValue_leBytes] at this
  rw [← UInt32.toNat_inj, u32le_toNat]
  have := bits.toNat_lt
  omega

theorem u64le_leBytes (bits : UInt64) (v : Vector UInt8 8) (h : v.toList = leBytes 8 bits.toNat) :
    u64le v[0] v[1] v[2] v[3] v[4] v[5] v[6] v[7] = bits := by
  have := leValue_vec8 v
  rw [h, leValue_leBytes] at this
  rw [← UInt64.toNat_inj, u64le_toNat]
  have := bits.toNat_lt
  omega

theorem deF32_wire (t : Target) (fin : Ending) (bits : UInt32) (rest : List UInt8) :
    Prog.exec t fin deF32 (leBytes 4 bits.toNat ++ rest) = .ok (bits, rest) := by
  obtain ⟨v, hv1, hv2⟩ := exec_readBytes_append t fin 4 (leBytes 4 bits.toNat) rest (by simp)
  rw [deF32, Prog.bind_eq, Prog.exec_bind, hv2, Prog.next_ok, u32le_leBytes bits v hv1]
  rfl

theorem deF64_wire (t : Target) (fin : Ending) (bits : UInt64) (rest : List UInt8) :
    Prog.exec t fin deF64 (leBytes 8 bits.toNat ++ rest) = .ok (bits, rest) := by
  obtain ⟨v, hv1, hv2⟩ := exec_readBytes_append t fin 8 (leBytes 8 bits.toNat) rest (by simp)
  rw [deF64, Prog.bind_eq, Prog.exec_bind, hv2, Prog.next_ok, u64le_leBytes bits v hv1]
  rfl

theorem deU8_wire (t : Target) (fin : Ending) (b : UInt8) (rest : List UInt8) :
    Prog.exec t fin deU8 (b :: rest) = .ok (b, rest) := by
  simp [deU8, Prog.exec_bind, exec_readBytes, Prog.exec, takeVec]

theorem deI8_wire (t : Target) (fin : Ending) (v : Int8) (rest : List UInt8) :
    Prog.exec t fin deI8 (v.toUInt8 :: rest) = .ok (v, rest) := by
  simp [deI8, Prog.exec_bind, exec_readBytes, Prog.exec, takeVec]

theorem deI16_wire (t : Target) (fin : Ending) (v : Int16) (rest : List UInt8) :
    Prog.exec t fin deI16 (varint 16 (zigzag v.toInt) ++ rest) = .ok (v, rest) := by
  rw [deI16, Prog.bind_eq, Prog.exec_bind, ← ZigZag.encodeI16_spec,
    exec_u16_varint _ _ _ (UInt16.toNat_lt _), Prog.next_ok, UInt16.ofNat_toNat,
    ZigZag.decode_encodeI16]
  rfl

theorem deI32_wire (t : Target) (fin : Ending) (v : Int32) (rest : List UInt8) :
    Prog.exec t fin deI32 (varint 32 (zigzag v.toInt) ++ rest) = .ok (v, rest) := by
  rw [deI32, Prog.bind_eq, Prog.exec_bind, ← ZigZag.encodeI32_spec,
    exec_u32_varint _ _ _ (UInt32.toNat_lt _), Prog.next_ok, UInt32.ofNat_toNat,
    ZigZag.decode_encodeI32]
  rfl

theorem deI64_wire (t : Target) (fin : Ending) (v : Int64) (rest : List UInt8) :
    Prog.exec t fin deI64 (varint 64 (zigzag v.toInt) ++ rest) = .ok (v, rest) := by
  rw [deI64, Prog.bind_eq, Prog.exec_bind, ← ZigZag.encodeI64_spec,
    exec_u64_varint _ _ _ (UInt64.toNat_lt _), Prog.next_ok, UInt64.ofNat_toNat,
    ZigZag.decode_encodeI64]
  rfl

theorem deChar_wire (t : Target) (fin : Ending) (c : Char) (rest : List UInt8) :
    Prog.exec t fin (deChar t) (block (utf8 (String.singleton c)) ++ rest) = .ok (c, rest) := by
  have h4 : (utf8 (String.singleton c)).length ≤ 4 := by
    have h : (utf8 (String.singleton c)).length = (String.singleton c).utf8ByteSize := rfl
    rw [h, String.utf8ByteSize_singleton]
    exact c.utf8Size_le_four
  have hlt : (utf8 (String.singleton c)).length < 2 ^ t.ptr.bits := by
    cases t.ptr <;> simp [PtrWidth.bits] <;> omega
  rw [deChar, Prog.bind_eq, Prog.exec_bind, deString_block t fin _ hlt, Prog.next_ok,
    String.toList_singleton]
  rfl

/-- Read one thing and wrap it. -/
theorem exec_wrap {β : Type} (t : Target) (fin : Ending) (p : Prog DeErr α) (f : α → β) (a : α)
    (bs rest : List UInt8) (h : Prog.exec t fin p bs = .ok (a, rest)) :
    Prog.exec t fin (p >>= fun a => pure (f a)) bs = .ok (f a, rest) := by
  rw [Prog.bind_eq, Prog.exec_bind, h]
  rfl

mutual
/-- Decoding the encoding of a value of a supported type yields the value. -/
theorem de_wire (t : Target) (hm : 4096 ≤ t.memLimit) : (ty : Ty) → Supported ty → (v : Val) →
    Has t ty v → (fin : Ending) → (rest : List UInt8) →
    Prog.exec t fin (de t ty) (wire v ++ rest) = .ok (v, rest)
  | .bool, _, v, h, fin, rest => by
    simp only [Has] at h
    obtain ⟨b, rfl⟩ := h
    rw [wire, de]
    exact exec_wrap t fin _ _ _ _ _ (deBool_byte t fin b rest)
  | .i8, _, v, h, fin, rest => by
    simp only [Has] at h
    obtain ⟨x, rfl⟩ := h
    rw [wire, de]
    exact exec_wrap t fin _ _ _ _ _ (deI8_wire t fin x rest)
  | .i16, _, v, h, fin, rest => by
    simp only [Has] at h
    obtain ⟨x, rfl⟩ := h
    rw [wire, de]
    exact exec_wrap t fin _ _ _ _ _ (deI16_wire t fin x rest)
  | .i32, _, v, h, fin, rest => by
    simp only [Has] at h
    obtain ⟨x, rfl⟩ := h
    rw [wire, de]
    exact exec_wrap t fin _ _ _ _ _ (deI32_wire t fin x rest)
  | .i64, _, v, h, fin, rest => by
    simp only [Has] at h
    obtain ⟨x, rfl⟩ := h
    rw [wire, de]
    exact exec_wrap t fin _ _ _ _ _ (deI64_wire t fin x rest)
  | .u8, _, v, h, fin, rest => by
    simp only [Has] at h
    obtain ⟨x, rfl⟩ := h
    rw [wire, de]
    exact exec_wrap t fin _ _ _ _ _ (deU8_wire t fin x rest)
  | .u16, _, v, h, fin, rest => by
    simp only [Has] at h
    obtain ⟨x, rfl⟩ := h
    rw [wire, de]
    have := exec_u16_varint t fin x.toNat x.toNat_lt rest
    rw [UInt16.ofNat_toNat] at this
    exact exec_wrap t fin _ _ _ _ _ this
  | .u32, _, v, h, fin, rest => by
    simp only [Has] at h
    obtain ⟨x, rfl⟩ := h
    rw [wire, de]
    have := exec_u32_varint t fin x.toNat x.toNat_lt rest
    rw [UInt32.ofNat_toNat] at this
    exact exec_wrap t fin _ _ _ _ _ this
  | .u64, _, v, h, fin, rest => by
    simp only [Has] at h
    obtain ⟨x, rfl⟩ := h
    rw [wire, de]
    have := exec_u64_varint t fin x.toNat x.toNat_lt rest
    rw [UInt64.ofNat_toNat] at this
    exact exec_wrap t fin _ _ _ _ _ this
  | .f32, _, v, h, fin, rest => by
    simp only [Has] at h
    obtain ⟨x, rfl⟩ := h
    rw [wire, de]
    exact exec_wrap t fin _ _ _ _ _ (deF32_wire t fin x rest)
  | .f64, _, v, h, fin, rest => by
    simp only [Has] at h
    obtain ⟨x, rfl⟩ := h
    rw [wire, de]
    exact exec_wrap t fin _ _ _ _ _ (deF64_wire t fin x rest)
  | .char, _, v, h, fin, rest => by
    simp only [Has] at h
    obtain ⟨x, rfl⟩ := h
    rw [wire, de]
    exact exec_wrap t fin _ _ _ _ _ (deChar_wire t fin x rest)
  | .string, _, v, h, fin, rest => by
    simp only [Has] at h
    obtain ⟨x, rfl, hl⟩ := h
    rw [wire, de]
    exact exec_wrap t fin _ _ _ _ _ (deString_block t fin x hl rest)
  | .byteBuf, _, v, h, fin, rest => by
    simp only [Has] at h
    obtain ⟨x, rfl, hl⟩ := h
    rw [wire, de]
    exact exec_wrap t fin _ _ _ _ _ (deByteBuf_block t hm fin x rest hl)
  | .i128, hs, _, _, _, _ => by simp [Supported] at hs
  | .u128, hs, _, _, _, _ => by simp [Supported] at hs
  | .str, hs, _, _, _, _ => by simp [Supported] at hs
  | .bytes, hs, _, _, _, _ => by simp [Supported] at hs
  | .any, hs, _, _, _, _ => by simp [Supported] at hs
  | .ignoredAny, hs, _, _, _, _ => by simp [Supported] at hs
  | .option ty, hs, v, h, fin, rest => by
    simp only [Supported] at hs
    simp only [Has] at h
    rw [de, Prog.bind_eq, Prog.exec_bind]
    rcases h with rfl | ⟨w, rfl, hw⟩
    · have := deBool_byte t fin false rest
      rw [wire]
      simp only [Bool.false_eq_true, if_false] at this
      rw [List.singleton_append, this]
      rfl
    · have := deBool_byte t fin true (wire w ++ rest)
      simp only [if_true] at this
      rw [wire, List.cons_append, this]
      exact exec_wrap t fin _ _ _ _ _ (de_wire t hm ty hs w hw fin rest)
  | .unit, _, v, h, fin, rest => by
    simp only [Has] at h
    subst h
    rw [wire, de]
    rfl
  | .unitStruct name, _, v, h, fin, rest => by
    simp only [Has] at h
    subst h
    rw [wire, de]
    rfl
  | .newtypeStruct name ty, hs, v, h, fin, rest => by
    simp only [Supported] at hs
    simp only [Has] at h
    obtain ⟨w, rfl, hw⟩ := h
    rw [wire, de]
    exact exec_wrap t fin _ _ _ _ _ (de_wire t hm ty hs w hw fin rest)
  | .seq ty, hs, v, h, fin, rest => by
    simp only [Supported] at hs
    simp only [Has] at h
    obtain ⟨vs, rfl, hl, hvs⟩ := h
    rw [wire, de, lengthPrefix, Prog.bind_eq, Prog.exec_bind, List.append_assoc,
      exec_u64_varint t fin _ (lt_64_of_lt_bits hl), Prog.next_ok, asUsize_ofNat hl, wireAll_eq]
    have := exec_times t fin (de t ty) wire vs rest fun w hw r =>
      de_wire t hm ty hs w (hvs w hw) fin r
    exact exec_wrap t fin _ _ _ _ _ this
  | .tuple ts, hs, v, h, fin, rest => by
    simp only [Supported] at hs
    simp only [Has] at h
    obtain ⟨vs, rfl, hvs⟩ := h
    rw [wire, de]
    exact exec_wrap t fin _ _ _ _ _ (deAll_wire t hm ts hs vs hvs fin rest)
  | .tupleStruct name ts, hs, v, h, fin, rest => by
    simp only [Supported] at hs
    simp only [Has] at h
    obtain ⟨vs, rfl, hvs⟩ := h
    rw [wire, de]
    exact exec_wrap t fin _ _ _ _ _ (deAll_wire t hm ts hs vs hvs fin rest)
  | .map kt vt, hs, v, h, fin, rest => by
    simp only [Supported] at hs
    simp only [Has] at h
    obtain ⟨es, rfl, hl, hes⟩ := h
    have hkt : ∀ k, Has t kt k → ∀ r, Prog.exec t fin (de t kt) (wire k ++ r) = .ok (k, r) := by
      intro k hk r
      rw [hs.1] at hk ⊢
      simp only [Has] at hk
      obtain ⟨x, rfl, hx⟩ := hk
      rw [wire, de]
      exact exec_wrap t fin _ _ _ _ _ (deString_block t fin x hx r)
    rw [wire, de, lengthPrefix, Prog.bind_eq, Prog.exec_bind, List.append_assoc,
      exec_u64_varint t fin _ (lt_64_of_lt_bits hl), Prog.next_ok, asUsize_ofNat hl, wireEntries_eq]
    have := exec_times t fin (do
      let k ← de t kt
      let v ← de t vt
      pure (k, v)) (fun e : Val × Val => wire e.1 ++ wire e.2) es rest fun e he r => by
        have h1 := hkt e.1 (hes e he).1 (wire e.2 ++ r)
        have h2 := de_wire t hm vt hs.2 e.2 (hes e he).2 fin r
        rw [List.append_assoc, Prog.bind_eq, Prog.exec_bind, h1, Prog.next_ok]
        exact exec_wrap t fin _ _ _ _ _ h2
    exact exec_wrap t fin _ _ _ _ _ this
  | .struct name fts, hs, v, h, fin, rest => by
    simp only [Supported] at hs
    simp only [Has] at h
    obtain ⟨fs, rfl, hfs⟩ := h
    rw [wire, de]
    exact exec_wrap t fin _ _ _ _ _ (deFields_wire t hm fts hs fs hfs fin rest)
  | .enum name vs, hs, v, h, fin, rest => by
    simp only [Supported] at hs
    simp only [Has] at h
    obtain ⟨j, w, hj, hw, hd⟩ := deVariant_wire t hm name 0 vs hs.2 (by omega) v h
    rw [de, hw, Nat.zero_add, varint_32_16 j (by omega), List.append_assoc, Prog.bind_eq,
      Prog.exec_bind, exec_u16_varint t fin j (by omega), Prog.next_ok]
    have := hd fin rest
    rw [Nat.zero_add] at this
    have hj16 : (UInt16.ofNat j).toNat = j := by
      rw [UInt16.toNat_ofNat', Nat.mod_eq_of_lt (by omega)]
    rw [hj16]
    exact this
theorem deAll_wire (t : Target) (hm : 4096 ≤ t.memLimit) : (ts : List Ty) → AllSupported ts →
    (vs : List Val) → HasAll t ts vs → (fin : Ending) → (rest : List UInt8) →
    Prog.exec t fin (deAll t ts) (wireAll vs ++ rest) = .ok (vs, rest)
  | [], _, vs, h, fin, rest => by
    simp only [HasAll] at h
    subst h
    rw [deAll, wireAll]
    rfl
  | ty :: ts, hs, vs, h, fin, rest => by
    simp only [AllSupported] at hs
    simp only [HasAll] at h
    obtain ⟨w, ws, rfl, hw, hws⟩ := h
    rw [deAll, wireAll, List.append_assoc, Prog.bind_eq, Prog.exec_bind,
      de_wire t hm ty hs.1 w hw, Prog.next_ok]
    exact exec_wrap t fin _ _ _ _ _ (deAll_wire t hm ts hs.2 ws hws fin rest)
theorem deFields_wire (t : Target) (hm : 4096 ≤ t.memLimit) : (fts : List (String × Ty)) →
    FieldsSupported fts → (fs : List (String × Val)) → HasFields t fts fs → (fin : Ending) →
    (rest : List UInt8) → Prog.exec t fin (deFields t fts) (wireFields fs ++ rest) = .ok (fs, rest)
  | [], _, fs, h, fin, rest => by
    simp only [HasFields] at h
    subst h
    rw [deFields, wireFields]
    rfl
  | (n, ty) :: fts, hs, fs, h, fin, rest => by
    simp only [FieldsSupported] at hs
    simp only [HasFields] at h
    obtain ⟨w, ws, rfl, hw, hws⟩ := h
    rw [deFields, wireFields, List.append_assoc, Prog.bind_eq, Prog.exec_bind,
      de_wire t hm ty hs.1 w hw, Prog.next_ok]
    exact exec_wrap t fin _ _ _ _ _ (deFields_wire t hm fts hs.2 ws hws fin rest)
theorem deVariant_wire (t : Target) (hm : 4096 ≤ t.memLimit) (name : String) (k : Nat) :
    (vs : List (String × VTy)) → VariantsSupported vs → k + vs.length ≤ 16384 → (v : Val) →
    HasVariant t name k vs v → ∃ j w, j < vs.length ∧ wire v = varint 32 (k + j) ++ w ∧
      ∀ fin rest, Prog.exec t fin (deVariant t name (UInt16.ofNat (k + j)) j vs) (w ++ rest)
        = .ok (v, rest)
  | [], _, _, v, h => by simp [HasVariant] at h
  | (vn, vt) :: vs, hs, hk, v, h => by
    simp only [VariantsSupported] at hs
    simp only [HasVariant] at h
    simp only [List.length_cons] at hk
    rcases h with h | h
    · have h32 : (UInt32.ofNat k).toNat = k := by
        rw [UInt32.toNat_ofNat', Nat.mod_eq_of_lt (by omega)]
      obtain ⟨w, hw, hd⟩ := dePayload_wire t hm name (UInt32.ofNat k) vn vt hs.1 v h
      refine ⟨0, w, by simp, by rw [hw, h32]; rfl, fun fin rest => ?_⟩
      rw [deVariant]
      have h16 : (UInt16.ofNat (k + 0)).toUInt32 = UInt32.ofNat k := by
        rw [← UInt32.toNat_inj, h32, UInt16.toNat_toUInt32, UInt16.toNat_ofNat',
          Nat.mod_eq_of_lt (by omega), Nat.add_zero]
      rw [h16]
      exact hd fin rest
    · obtain ⟨j, w, hj, hw, hd⟩ := deVariant_wire t hm name (k + 1) vs hs.2 (by omega) v h
      refine ⟨j + 1, w, by simp; omega, ?_, fun fin rest => ?_⟩
      · rw [hw, show k + 1 + j = k + (j + 1) by omega]
      · rw [deVariant, show k + (j + 1) = k + 1 + j by omega]
        exact hd fin rest
theorem dePayload_wire (t : Target) (hm : 4096 ≤ t.memLimit) (name : String) (i : UInt32)
    (vn : String) : (vt : VTy) → PayloadSupported vt → (v : Val) → HasPayload t name i vn vt v →
    ∃ w, wire v = varint 32 i.toNat ++ w ∧
      ∀ fin rest, Prog.exec t fin (dePayload t name i vn vt) (w ++ rest) = .ok (v, rest)
  | .unit, _, v, h => by
    simp only [HasPayload] at h
    subst h
    refine ⟨[], by rw [wire]; simp, fun fin rest => ?_⟩
    rw [dePayload]
    rfl
  | .newtype ty, hs, v, h => by
    simp only [PayloadSupported] at hs
    simp only [HasPayload] at h
    obtain ⟨w, rfl, hw⟩ := h
    refine ⟨wire w, by rw [wire], fun fin rest => ?_⟩
    rw [dePayload]
    exact exec_wrap t fin _ _ _ _ _ (de_wire t hm ty hs w hw fin rest)
  | .tuple ts, hs, v, h => by
    simp only [PayloadSupported] at hs
    simp only [HasPayload] at h
    obtain ⟨ws, rfl, hw⟩ := h
    refine ⟨wireAll ws, by rw [wire], fun fin rest => ?_⟩
    rw [dePayload]
    exact exec_wrap t fin _ _ _ _ _ (deAll_wire t hm ts hs ws hw fin rest)
  | .struct fts, hs, v, h => by
    simp only [PayloadSupported] at hs
    simp only [HasPayload] at h
    obtain ⟨ws, rfl, hw⟩ := h
    refine ⟨wireFields ws, by rw [wire], fun fin rest => ?_⟩
    rw [dePayload]
    exact exec_wrap t fin _ _ _ _ _ (deFields_wire t hm fts hs ws hw fin rest)
end

end Dlhn.De
