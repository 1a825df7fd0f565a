import Verif.Proof.DeGen
/-! # What a successful decode guarantees -/
namespace Dlhn.De

open PrefixVarint Spec
open Prog (Yields exec)

theorem groups_mono {a b : Nat} (h : a ≤ b) : groups a ≤ groups b := by
  obtain ⟨k, hk⟩ : ∃ k, groups b = k + 1 := ⟨groups b - 1, by have := groups_pos b; omega⟩
  rw [hk, groups_le_iff]
  exact Nat.lt_of_le_of_lt h ((groups_le_iff k b).mp (by omega))

theorem varintLen_mono (w : Nat) {a b : Nat} (h : a ≤ b) : varintLen w a ≤ varintLen w b := by
  have := groups_mono h
  simp only [varintLen]
  omega

theorem yields_varint {α : Type} {t : Target} {p : Prog DeErr α} (w : Nat)
    (hw : w = 16 ∨ w = 32 ∨ w = 64) (conv : Nat → α) (back : α → Nat)
    (hback : ∀ v, v < 2 ^ w → back (conv v) = v)
    (h : ∀ fin bs, exec t fin p bs = ofDec conv (varintDecode w bs)) :
    Yields t p fun v n => varintLen w (back v) ≤ n := by
  intro fin bs a rest hx
  rw [h] at hx
  cases bs with
  | nil => simp [varintDecode_nil, ofDec] at hx
  | cons b bs =>
    cases hd : varintDecode w (b :: bs) with
    | none => simp [hd, ofDec] at hx
    | some vr =>
      obtain ⟨v, r⟩ := vr
      simp only [hd, ofDec, Outcome.ok.injEq, Prod.mk.injEq] at hx
      obtain ⟨rfl, rfl⟩ := hx
      obtain ⟨h1, h2, h3, h4⟩ := varintDecode_bound w hw b bs r v hd
      refine ⟨1 + extraBytes w b, ?_, ?_⟩
      · rw [h3, List.length_drop, List.length_cons]; omega
      · simp only [hback v h1]; exact h4

theorem yields_u16 (t : Target) : Yields t (io decodeU16) fun v n => varintLen 16 v.toNat ≤ n :=
  yields_varint 16 (by simp) UInt16.ofNat UInt16.toNat
    (fun v hv => by rw [UInt16.toNat_ofNat', Nat.mod_eq_of_lt hv]) fun fin bs => exec_u16 t fin bs
theorem yields_u32 (t : Target) : Yields t (io decodeU32) fun v n => varintLen 32 v.toNat ≤ n :=
  yields_varint 32 (by simp) UInt32.ofNat UInt32.toNat
    (fun v hv => by rw [UInt32.toNat_ofNat', Nat.mod_eq_of_lt hv]) fun fin bs => exec_u32 t fin bs
theorem yields_u64 (t : Target) : Yields t (io decodeU64) fun v n => varintLen 64 v.toNat ≤ n :=
  yields_varint 64 (by simp) UInt64.ofNat UInt64.toNat
    (fun v hv => by rw [UInt64.toNat_ofNat', Nat.mod_eq_of_lt hv]) fun fin bs => exec_u64 t fin bs

theorem yields_read (t : Target) (n : Nat) : Yields t (readBytes n) fun _ m => m = n :=
  Yields.readExact fun _ => Yields.done_ok (by omega)

theorem length_block (bs : List UInt8) : (block bs).length = varintLen 64 bs.length + bs.length := by
  rw [block, List.length_append, length_varint]

/-- What `t` decodes from `n` bytes can be held in memory by `t'`. -/
def Within (t t' : Target) (n : Nat) : Prop := t'.ptr = .w64 ∨ t'.ptr = t.ptr ∧ n < 2 ^ 32

theorem Within.mono {t t' : Target} {n m : Nat} (h : Within t t' n) (hm : m ≤ n) :
    Within t t' m :=
  h.imp_right fun h => ⟨h.1, by omega⟩

theorem Within.self {t : Target} {n : Nat} (h : t.ptr = .w64 ∨ n < 2 ^ 32) : Within t t n :=
  h.imp_right fun h => ⟨rfl, h⟩

theorem Within.bits {t t' : Target} {n k : Nat} (h : Within t t' n) (hk : k < 2 ^ t.ptr.bits) :
    k < 2 ^ t'.ptr.bits := by
  rcases h with h | h
  · rw [h]; exact lt_64_of_lt_bits hk
  · rw [h.1]; exact hk

theorem asUsize_lt (t : Target) (x : UInt64) : t.asUsize x < 2 ^ t.ptr.bits :=
  Nat.mod_lt _ (Nat.two_pow_pos _)

theorem bits_ge (t : Target) : 2 ^ 32 ≤ 2 ^ t.ptr.bits := by cases t.ptr <;> decide

theorem yields_string (t : Target) :
    Yields t (deString t) fun s n => (block (utf8 s)).length ≤ n ∧
      (utf8 s).length < 2 ^ t.ptr.bits := by
  refine (yields_u64 t).bind fun len n hn => ?_
  split
  · rename_i hlt
    refine (yields_read t _).bind fun v m hm => ?_
    split
    · exact Yields.done_err
    · rename_i s hs
      have := utf8_of_fromUtf8 hs
      refine Yields.done_ok ?_
      have hlt : len.toNat < 128 := hlt
      have hb := bits_ge t
      rw [this, length_block]
      simp only [Vector.length_toList]
      omega
  · refine Yields.takeToEnd fun v hv => ?_
    split
    · exact Yields.done_err
    · rename_i s hs
      have := utf8_of_fromUtf8 hs
      split
      · exact Yields.done_err
      · rename_i he
        refine Yields.done_ok ?_
        have he : v.length = t.asUsize len := Decidable.not_not.mp he
        have hl := asUsize_lt t len
        have hm := varintLen_mono 64 (asUsize_le t len)
        rw [this, length_block, he]
        omega

theorem yields_char (t : Target) :
    Yields t (deChar t) fun c n => (block (utf8 (String.singleton c))).length ≤ n := by
  refine (yields_string t).bind fun s n hn => ?_
  split
  · exact Yields.done_err
  · rename_i c cs hs
    refine Yields.done_ok ?_
    have h1 : s = String.singleton c ++ String.ofList cs := by
      rw [← String.ofList_toList (s := s), hs, String.ofList_cons]
    have h2 : (utf8 (String.singleton c)).length ≤ (utf8 s).length := by
      show (String.singleton c).utf8ByteSize ≤ s.utf8ByteSize
      rw [h1, String.utf8ByteSize_append]
      omega
    have h3 := varintLen_mono 64 h2
    rw [length_block] at hn ⊢
    omega

theorem yields_byteBufLoop (t : Target) (len lim fuel : Nat) (result : List UInt8) :
    Yields t (byteBufLoop len lim fuel result result.length) fun bs n =>
      bs.length = result.length + n ∧ (bs.length = result.length ∨ bs.length < lim + 4096) := by
  induction fuel generalizing result with
  | zero => exact Yields.done_panic
  | succ fuel ih =>
    rw [byteBufLoop]
    split
    · rename_i hlt
      refine (yields_read t _).bind fun v m hm => ?_
      have hl : (result ++ v.toList).length = result.length + min 4096 (len - result.length) := by
        rw [List.length_append, Vector.length_toList]
      rw [← hl]
      refine (ih (result ++ v.toList)).mono fun bs n hn => ?_
      rw [hl] at hn
      omega
    · exact Yields.done_ok ⟨by omega, .inl rfl⟩

theorem length_byteBufLoop_le {t : Target} (len lim fuel : Nat) (result : List UInt8)
    (hr : result.length ≤ len) :
    Yields t (byteBufLoop len lim fuel result result.length) fun bs _ => bs.length ≤ len := by
  induction fuel generalizing result with
  | zero => exact Yields.done_panic
  | succ fuel ih =>
    rw [byteBufLoop]
    split
    · refine (yields_read t _).bind fun v m hm => ?_
      have hl : (result ++ v.toList).length = result.length + min 4096 (len - result.length) := by
        rw [List.length_append, Vector.length_toList]
      rw [← hl]
      exact ih _ (by omega)
    · exact Yields.done_ok hr

theorem Yields.and {ε α : Type} {t : Target} {p : Prog ε α} {Q R : α → Nat → Prop}
    (h1 : Yields t p Q) (h2 : Yields t p R) : Yields t p fun a n => Q a n ∧ R a n := by
  intro fin bs a rest hx
  obtain ⟨n, hn, hq⟩ := h1 fin bs a rest hx
  obtain ⟨m, hm, hr⟩ := h2 fin bs a rest hx
  have : m = n := by omega
  subst this
  exact ⟨m, hn, hq, hr⟩

theorem yields_byteBuf (t : Target) :
    Yields t (deByteBuf t) fun bs n => (block bs).length ≤ n ∧ bs.length < 2 ^ 64 ∧
      (∀ t', Within t t' n → bs.length < 2 ^ t'.ptr.bits) := by
  refine (yields_u64 t).bind fun len n hn => ?_
  have hl := len.toNat_lt
  split
  · refine Yields.alloc ?_
    refine (Yields.and (yields_byteBufLoop t len.toNat (t.asUsize len) (t.asUsize len + 1) [])
      (length_byteBufLoop_le len.toNat (t.asUsize len) (t.asUsize len + 1) [] (by simp))).mono
      fun bs m hm => ?_
    obtain ⟨⟨h1, -⟩, h3⟩ := hm
    have := varintLen_mono 64 h3
    rw [length_block]
    simp only [List.length_nil] at h1
    refine ⟨by omega, by omega, fun t' h => ?_⟩
    have := bits_ge t'
    rcases h with h | h
    · rw [h]; simp only [PtrWidth.bits]; omega
    · omega
  · refine Yields.alloc ((yields_read t _).bind fun v m hm => Yields.done_ok ?_)
    rw [length_block, Vector.length_toList]
    refine ⟨by omega, by omega, fun t' h => ?_⟩
    have := bits_ge t'
    rcases h with h | h
    · rw [h]; simp only [PtrWidth.bits]; omega
    · omega

theorem yields_times {α : Type} {t : Target} {p : Prog DeErr α} (A : α → Prop)
    (enc : α → List UInt8) (h : Yields t p fun a m => A a ∧ (enc a).length ≤ m) (n : Nat) :
    Yields t (times n p) fun as m => as.length = n ∧ (∀ a ∈ as, A a) ∧
      ((as.map enc).flatten).length ≤ m := by
  induction n with
  | zero => exact Yields.done_ok (by simp)
  | succ n ih =>
    refine h.bind fun a m ha => ih.bind fun as k hk => Yields.done_ok ?_
    obtain ⟨h1, h2, h3⟩ := hk
    refine ⟨by simp [h1], ?_, ?_⟩
    · intro b hb
      rcases List.mem_cons.mp hb with rfl | hb
      · exact ha.1
      · exact h2 b hb
    · rw [List.map_cons, List.flatten_cons, List.length_append]
      omega

theorem yields_times_within {α : Type} {t t' : Target} {p : Prog DeErr α} (A : α → Prop)
    (enc : α → List UInt8)
    (h : Yields t p fun a m => (Within t t' m → A a) ∧ (enc a).length ≤ m) (n : Nat) :
    Yields t (times n p) fun as m => as.length = n ∧ (Within t t' m → ∀ a ∈ as, A a) ∧
      ((as.map enc).flatten).length ≤ m := by
  induction n with
  | zero => exact Yields.done_ok (by simp)
  | succ n ih =>
    refine h.bind fun a m ha => ih.bind fun as k hk => Yields.done_ok ?_
    obtain ⟨h1, h2, h3⟩ := hk
    refine ⟨by simp [h1], fun hw => ?_, ?_⟩
    · intro b hb
      rcases List.mem_cons.mp hb with rfl | hb
      · exact ha.1 (hw.mono (by omega))
      · exact h2 (hw.mono (by omega)) b hb
    · rw [List.map_cons, List.flatten_cons, List.length_append]
      omega

theorem yields_wrap {α β : Type} {t : Target} {p : Prog DeErr α} {Q : α → Nat → Prop}
    {R : β → Nat → Prop} (hp : Yields t p Q) (f : α → β) (hf : ∀ a n, Q a n → R (f a) n) :
    Yields t (p >>= fun a => pure (f a)) R :=
  hp.bind fun a n hq => Yields.done_ok (hf a n hq)

mutual
/-- A value decoded as a supported type, on a 32-bit target from less than 2^32 bytes,
is a value of the type, and its encoding is not longer than what was consumed. -/
theorem yields_de (t t' : Target) : (ty : Ty) → Supported ty →
    Yields t (de t ty) fun v n => (Within t t' n → Has t' ty v) ∧ (wire v).length ≤ n
  | .bool, _ => by
    rw [de]
    refine yields_wrap (Q := fun _ n => 1 ≤ n) ?_ _ fun b n hn => ?_
    · refine (yields_read t 1).bind fun v m hm => ?_
      split
      · exact Yields.done_ok (by omega)
      · exact Yields.done_ok (by omega)
      · exact Yields.done_err
    · rw [Has, wire]; exact ⟨fun _ => ⟨b, rfl⟩, by simpa using hn⟩
  | .i8, _ => by
    rw [de]
    refine yields_wrap (yields_wrap (R := fun _ n => 1 ≤ n) (yields_read t 1) _ fun _ _ hm => ?_) _
      fun b n hn => ?_
    · omega
    · rw [Has, wire]; exact ⟨fun _ => ⟨b, rfl⟩, by simpa using hn⟩
  | .i16, _ => by
    rw [de]
    refine yields_wrap (yields_wrap (R := fun (v : Int16) n => varintLen 16 (zigzag v.toInt) ≤ n)
      (yields_u16 t) _ fun v n hn => ?_) _ fun b n hn => ?_
    · rw [← ZigZag.encodeI16_spec, ZigZag.encode_decodeI16]; exact hn
    · rw [Has, wire, length_varint]; exact ⟨fun _ => ⟨b, rfl⟩, hn⟩
  | .i32, _ => by
    rw [de]
    refine yields_wrap (yields_wrap (R := fun (v : Int32) n => varintLen 32 (zigzag v.toInt) ≤ n)
      (yields_u32 t) _ fun v n hn => ?_) _ fun b n hn => ?_
    · rw [← ZigZag.encodeI32_spec, ZigZag.encode_decodeI32]; exact hn
    · rw [Has, wire, length_varint]; exact ⟨fun _ => ⟨b, rfl⟩, hn⟩
  | .i64, _ => by
    rw [de]
    refine yields_wrap (yields_wrap (R := fun (v : Int64) n => varintLen 64 (zigzag v.toInt) ≤ n)
      (yields_u64 t) _ fun v n hn => ?_) _ fun b n hn => ?_
    · rw [← ZigZag.encodeI64_spec, ZigZag.encode_decodeI64]; exact hn
    · rw [Has, wire, length_varint]; exact ⟨fun _ => ⟨b, rfl⟩, hn⟩
  | .u8, _ => by
    rw [de]
    refine yields_wrap (yields_wrap (R := fun _ n => 1 ≤ n) (yields_read t 1) _ fun _ _ hm => ?_) _
      fun b n hn => ?_
    · omega
    · rw [Has, wire]; exact ⟨fun _ => ⟨b, rfl⟩, by simpa using hn⟩
  | .u16, _ => by
    rw [de]
    refine yields_wrap (yields_u16 t) _ fun b n hn => ?_
    rw [Has, wire, length_varint]; exact ⟨fun _ => ⟨b, rfl⟩, hn⟩
  | .u32, _ => by
    rw [de]
    refine yields_wrap (yields_u32 t) _ fun b n hn => ?_
    rw [Has, wire, length_varint]; exact ⟨fun _ => ⟨b, rfl⟩, hn⟩
  | .u64, _ => by
    rw [de]
    refine yields_wrap (yields_u64 t) _ fun b n hn => ?_
    rw [Has, wire, length_varint]; exact ⟨fun _ => ⟨b, rfl⟩, hn⟩
  | .f32, _ => by
    rw [de]
    refine yields_wrap (yields_wrap (R := fun _ n => 4 ≤ n) (yields_read t 4) _ fun _ _ hm => ?_) _
      fun b n hn => ?_
    · omega
    · rw [Has, wire, length_leBytes]; exact ⟨fun _ => ⟨b, rfl⟩, hn⟩
  | .f64, _ => by
    rw [de]
    refine yields_wrap (yields_wrap (R := fun _ n => 8 ≤ n) (yields_read t 8) _ fun _ _ hm => ?_) _
      fun b n hn => ?_
    · omega
    · rw [Has, wire, length_leBytes]; exact ⟨fun _ => ⟨b, rfl⟩, hn⟩
  | .char, _ => by
    rw [de]
    refine yields_wrap (yields_char t) _ fun b n hn => ?_
    rw [Has, wire]; exact ⟨fun _ => ⟨b, rfl⟩, hn⟩
  | .string, _ => by
    rw [de]
    refine yields_wrap (yields_string t) _ fun b n hn => ?_
    rw [Has, wire]; exact ⟨fun h => ⟨b, rfl, h.bits hn.2⟩, hn.1⟩
  | .byteBuf, _ => by
    rw [de]
    refine yields_wrap (yields_byteBuf t) _ fun b n hn => ?_
    rw [Has, wire]; exact ⟨fun h => ⟨b, rfl, hn.2.2 t' h⟩, hn.1⟩
  | .i128, hs => by simp [Supported] at hs
  | .u128, hs => by simp [Supported] at hs
  | .str, hs => by simp [Supported] at hs
  | .bytes, hs => by simp [Supported] at hs
  | .any, hs => by simp [Supported] at hs
  | .ignoredAny, hs => by simp [Supported] at hs
  | .option ty, hs => by
    rw [de]
    have hb : Yields t deBool fun _ n => 1 ≤ n := by
      refine (yields_read t 1).bind fun v m hm => ?_
      split
      · exact Yields.done_ok (by omega)
      · exact Yields.done_ok (by omega)
      · exact Yields.done_err
    refine hb.bind fun b n hn => ?_
    split
    · refine yields_wrap (yields_de t t' ty (by simpa only [Supported] using hs)) _ fun w m hm => ?_
      rw [Has, wire, List.length_cons]
      exact ⟨fun h => .inr ⟨w, rfl, hm.1 (h.mono (by omega))⟩, by omega⟩
    · refine Yields.done_ok ?_
      rw [Has, wire]
      exact ⟨fun _ => .inl rfl, by simpa using hn⟩
  | .unit, _ => by
    rw [de]
    refine Yields.done_ok ?_
    rw [Has, wire]
    exact ⟨fun _ => rfl, by simp⟩
  | .unitStruct name, _ => by
    rw [de]
    refine Yields.done_ok ?_
    rw [Has, wire]
    exact ⟨fun _ => rfl, by simp⟩
  | .newtypeStruct name ty, hs => by
    rw [de]
    refine yields_wrap (yields_de t t' ty (by simpa only [Supported] using hs)) _ fun w m hm => ?_
    rw [Has, wire]
    exact ⟨fun h => ⟨w, rfl, hm.1 (h.mono (by omega))⟩, by omega⟩
  | .seq ty, hs => by
    rw [de]
    refine (yields_u64 t).bind fun count n hn => ?_
    have := yields_times_within (Has t' ty) wire (yields_de t t' ty (by simpa only [Supported] using hs))
      (t.asUsize count)
    refine yields_wrap this _ fun vs m hm => ?_
    obtain ⟨h1, h2, h3⟩ := hm
    have := varintLen_mono 64 (asUsize_le t count)
    rw [Has, wire, wireAll_eq, lengthPrefix, List.length_append, length_varint, h1]
    exact ⟨fun h => ⟨vs, by rw [h1], by rw [h1]; exact h.bits (asUsize_lt t count),
      h2 (h.mono (by omega))⟩, by omega⟩
  | .tuple ts, hs => by
    rw [de]
    refine yields_wrap (yields_deAll t t' ts (by simpa only [Supported] using hs)) _ fun w m hm => ?_
    rw [Has, wire]
    exact ⟨fun h => ⟨w, rfl, hm.1 (h.mono (by omega))⟩, by omega⟩
  | .tupleStruct name ts, hs => by
    rw [de]
    refine yields_wrap (yields_deAll t t' ts (by simpa only [Supported] using hs)) _ fun w m hm => ?_
    rw [Has, wire]
    exact ⟨fun h => ⟨w, rfl, hm.1 (h.mono (by omega))⟩, by omega⟩
  | .map kt vt, hs => by
    simp only [Supported] at hs
    rw [de]
    have hk : Yields t (de t kt) fun v n => (Within t t' n → Has t' kt v) ∧ (wire v).length ≤ n := by
      rw [hs.1, de]
      refine yields_wrap (yields_string t) _ fun b n hn => ?_
      rw [Has, wire]; exact ⟨fun h => ⟨b, rfl, h.bits hn.2⟩, hn.1⟩
    refine (yields_u64 t).bind fun count n hn => ?_
    have hkv : Yields t (do
        let k ← de t kt
        let v ← de t vt
        pure (k, v)) fun (e : Val × Val) m => (Within t t' m → Has t' kt e.1 ∧ Has t' vt e.2) ∧
          (wire e.1 ++ wire e.2).length ≤ m := by
      refine hk.bind fun k a ha => yields_wrap (yields_de t t' vt hs.2) _ fun v b hb => ?_
      simp only [List.length_append]
      exact ⟨fun h => ⟨ha.1 (h.mono (by omega)), hb.1 (h.mono (by omega))⟩, by omega⟩
    have := yields_times_within _ (fun e : Val × Val => wire e.1 ++ wire e.2) hkv (t.asUsize count)
    refine yields_wrap this _ fun vs m hm => ?_
    obtain ⟨h1, h2, h3⟩ := hm
    have := varintLen_mono 64 (asUsize_le t count)
    rw [Has, wire, wireEntries_eq, lengthPrefix, List.length_append, length_varint, h1]
    exact ⟨fun h => ⟨vs, by rw [h1], by rw [h1]; exact h.bits (asUsize_lt t count),
      h2 (h.mono (by omega))⟩, by omega⟩
  | .struct name fts, hs => by
    rw [de]
    refine yields_wrap (yields_deFields t t' fts (by simpa only [Supported] using hs)) _
      fun w m hm => ?_
    rw [Has, wire]
    exact ⟨fun h => ⟨w, rfl, hm.1 (h.mono (by omega))⟩, by omega⟩
  | .enum name vs, hs => by
    simp only [Supported] at hs
    rw [de]
    refine (yields_u16 t).bind fun i n hn => ?_
    refine (yields_deVariant t t' name i i.toNat 0 vs hs.2 (by omega) (by omega)).mono ?_
    rintro v m ⟨h1, h2, h3⟩
    rw [Has]
    refine ⟨fun h => h1 (h.mono (by omega)), ?_⟩
    have : varintLen 32 i.toNat = varintLen 16 i.toNat := by
      have hg : groups i.toNat ≤ 2 := (groups_le_iff 1 _).mpr (by omega)
      simp only [varintLen]
      omega
    omega
theorem yields_deAll (t t' : Target) : (ts : List Ty) → AllSupported ts →
    Yields t (deAll t ts) fun vs n => (Within t t' n → HasAll t' ts vs) ∧ (wireAll vs).length ≤ n
  | [], _ => by
    rw [deAll]
    refine Yields.done_ok ?_
    simp [HasAll, wireAll]
  | ty :: ts, hs => by
    simp only [AllSupported] at hs
    rw [deAll]
    refine (yields_de t t' ty hs.1).bind fun w n hn =>
      yields_wrap (yields_deAll t t' ts hs.2) _ fun ws m hm => ?_
    rw [HasAll, wireAll, List.length_append]
    exact ⟨fun h => ⟨w, ws, rfl, hn.1 (h.mono (by omega)), hm.1 (h.mono (by omega))⟩, by omega⟩
theorem yields_deFields (t t' : Target) : (fts : List (String × Ty)) →
    FieldsSupported fts →
    Yields t (deFields t fts) fun fs n => (Within t t' n → HasFields t' fts fs) ∧ (wireFields fs).length ≤ n
  | [], _ => by
    rw [deFields]
    refine Yields.done_ok ?_
    simp [HasFields, wireFields]
  | (name, ty) :: fts, hs => by
    simp only [FieldsSupported] at hs
    rw [deFields]
    refine (yields_de t t' ty hs.1).bind fun w n hn =>
      yields_wrap (yields_deFields t t' fts hs.2) _ fun ws m hm => ?_
    rw [HasFields, wireFields, List.length_append]
    exact ⟨fun h => ⟨w, ws, rfl, hn.1 (h.mono (by omega)), hm.1 (h.mono (by omega))⟩, by omega⟩
theorem yields_deVariant (t t' : Target) (name : String) (i : UInt16) :
    (j k : Nat) → (vs : List (String × VTy)) → VariantsSupported vs → i.toNat = k + j →
    k + vs.length ≤ 16384 →
    Yields t (deVariant t name i j vs) fun v n => (Within t t' n → HasVariant t' name k vs v) ∧
      (wire v).length ≤ varintLen 32 i.toNat + n ∧ i.toNat < 16384
  | _, _, [], _, _, _ => by rw [deVariant]; exact Yields.done_err
  | j + 1, k, (vn, vt) :: vs, hs, hi, hk => by
    simp only [VariantsSupported] at hs
    simp only [List.length_cons] at hk
    rw [deVariant]
    refine (yields_deVariant t t' name i j (k + 1) vs hs.2 (by omega) (by omega)).mono ?_
    rintro v n ⟨h1, h2⟩
    rw [HasVariant]
    exact ⟨fun h => .inr (h1 h), h2⟩
  | 0, k, (vn, vt) :: vs, hs, hi, hk => by
    simp only [VariantsSupported] at hs
    simp only [List.length_cons] at hk
    rw [deVariant]
    refine (yields_dePayload t t' name i.toUInt32 vn vt hs.1).mono ?_
    rintro v n ⟨h1, h2⟩
    have h32 : i.toUInt32 = UInt32.ofNat k := by
      rw [← UInt32.toNat_inj, UInt16.toNat_toUInt32, UInt32.toNat_ofNat',
        Nat.mod_eq_of_lt (by omega)]
      omega
    rw [UInt16.toNat_toUInt32] at h2
    rw [HasVariant]
    exact ⟨fun h => .inl (h32 ▸ h1 h), h2, by omega⟩
theorem yields_dePayload (t t' : Target) (name : String) (i : UInt32)
    (vn : String) : (vt : VTy) → PayloadSupported vt →
    Yields t (dePayload t name i vn vt) fun v n => (Within t t' n → HasPayload t' name i vn vt v) ∧
      (wire v).length ≤ varintLen 32 i.toNat + n
  | .unit, _ => by
    rw [dePayload]
    refine Yields.done_ok ?_
    rw [HasPayload, wire, length_varint]
    exact ⟨fun _ => rfl, by omega⟩
  | .newtype ty, hs => by
    rw [dePayload]
    refine yields_wrap (yields_de t t' ty (by simpa only [PayloadSupported] using hs)) _
      fun w m hm => ?_
    rw [HasPayload, wire, List.length_append, length_varint]
    exact ⟨fun h => ⟨w, rfl, hm.1 (h.mono (by omega))⟩, by omega⟩
  | .tuple ts, hs => by
    rw [dePayload]
    refine yields_wrap (yields_deAll t t' ts (by simpa only [PayloadSupported] using hs)) _
      fun w m hm => ?_
    rw [HasPayload, wire, List.length_append, length_varint]
    exact ⟨fun h => ⟨w, rfl, hm.1 (h.mono (by omega))⟩, by omega⟩
  | .struct fts, hs => by
    rw [dePayload]
    refine yields_wrap (yields_deFields t t' fts (by simpa only [PayloadSupported] using hs)) _
      fun w m hm => ?_
    rw [HasPayload, wire, List.length_append, length_varint]
    exact ⟨fun h => ⟨w, rfl, hm.1 (h.mono (by omega))⟩, by omega⟩
end

/-! ## Values of supported types can be serialized -/

theorem allSerializable_iff (vs : List Val) : AllSerializable vs ↔ ∀ v ∈ vs, Serializable v := by
  induction vs with
  | nil => simp [AllSerializable]
  | cons v vs ih => simp [AllSerializable, ih]

theorem allFit_iff (vs : List Val) : AllFit vs ↔ ∀ v ∈ vs, Fits v := by
  induction vs with
  | nil => simp [AllFit]
  | cons v vs ih => simp [AllFit, ih]

theorem entriesSerializable_iff (es : List (Val × Val)) :
    EntriesSerializable es ↔ ∀ e ∈ es, IsKey e.1 ∧ Serializable e.2 := by
  induction es with
  | nil => simp [EntriesSerializable]
  | cons e es ih => obtain ⟨k, v⟩ := e; simp [EntriesSerializable, ih, and_assoc]

theorem entriesFit_iff (es : List (Val × Val)) :
    EntriesFit es ↔ ∀ e ∈ es, Fits e.1 ∧ Fits e.2 := by
  induction es with
  | nil => simp [EntriesFit]
  | cons e es ih => obtain ⟨k, v⟩ := e; simp [EntriesFit, ih, and_assoc]

mutual
theorem has_ok (t : Target) : (ty : Ty) → Supported ty → (v : Val) → Has t ty v →
    Serializable v ∧ Fits v
  | .bool, _, v, h => by rw [Has] at h; obtain ⟨_, rfl⟩ := h; simp [Serializable, Fits]
  | .i8, _, v, h => by rw [Has] at h; obtain ⟨_, rfl⟩ := h; simp [Serializable, Fits]
  | .i16, _, v, h => by rw [Has] at h; obtain ⟨_, rfl⟩ := h; simp [Serializable, Fits]
  | .i32, _, v, h => by rw [Has] at h; obtain ⟨_, rfl⟩ := h; simp [Serializable, Fits]
  | .i64, _, v, h => by rw [Has] at h; obtain ⟨_, rfl⟩ := h; simp [Serializable, Fits]
  | .u8, _, v, h => by rw [Has] at h; obtain ⟨_, rfl⟩ := h; simp [Serializable, Fits]
  | .u16, _, v, h => by rw [Has] at h; obtain ⟨_, rfl⟩ := h; simp [Serializable, Fits]
  | .u32, _, v, h => by rw [Has] at h; obtain ⟨_, rfl⟩ := h; simp [Serializable, Fits]
  | .u64, _, v, h => by rw [Has] at h; obtain ⟨_, rfl⟩ := h; simp [Serializable, Fits]
  | .f32, _, v, h => by rw [Has] at h; obtain ⟨_, rfl⟩ := h; simp [Serializable, Fits]
  | .f64, _, v, h => by rw [Has] at h; obtain ⟨_, rfl⟩ := h; simp [Serializable, Fits]
  | .char, _, v, h => by rw [Has] at h; obtain ⟨_, rfl⟩ := h; simp [Serializable, Fits]
  | .string, _, v, h => by
    rw [Has] at h; obtain ⟨_, rfl, hl⟩ := h
    simp only [Serializable, Fits, true_and]
    exact lt_64_of_lt_bits hl
  | .byteBuf, _, v, h => by
    rw [Has] at h; obtain ⟨_, rfl, hl⟩ := h
    simp only [Serializable, Fits, true_and]
    exact lt_64_of_lt_bits hl
  | .i128, hs, _, _ => by simp [Supported] at hs
  | .u128, hs, _, _ => by simp [Supported] at hs
  | .str, hs, _, _ => by simp [Supported] at hs
  | .bytes, hs, _, _ => by simp [Supported] at hs
  | .any, hs, _, _ => by simp [Supported] at hs
  | .ignoredAny, hs, _, _ => by simp [Supported] at hs
  | .option ty, hs, v, h => by
    simp only [Supported] at hs
    rw [Has] at h
    rcases h with rfl | ⟨w, rfl, hw⟩
    · simp [Serializable, Fits]
    · simpa only [Serializable, Fits] using has_ok t ty hs w hw
  | .unit, _, v, h => by rw [Has] at h; subst h; simp [Serializable, Fits]
  | .unitStruct _, _, v, h => by rw [Has] at h; subst h; simp [Serializable, Fits]
  | .newtypeStruct _ ty, hs, v, h => by
    simp only [Supported] at hs
    rw [Has] at h
    obtain ⟨w, rfl, hw⟩ := h
    simpa only [Serializable, Fits] using has_ok t ty hs w hw
  | .seq ty, hs, v, h => by
    simp only [Supported] at hs
    rw [Has] at h
    obtain ⟨vs, rfl, hl, hw⟩ := h
    have := fun w hx => has_ok t ty hs w (hw w hx)
    simp only [Serializable, Fits, allSerializable_iff, allFit_iff]
    refine ⟨fun w hx => (this w hx).1, fun n hn => ?_, fun w hx => (this w hx).2⟩
    simp only [Option.some.injEq] at hn
    subst hn
    exact lt_64_of_lt_bits hl
  | .tuple ts, hs, v, h => by
    simp only [Supported] at hs
    rw [Has] at h
    obtain ⟨w, rfl, hw⟩ := h
    simpa only [Serializable, Fits] using hasAll_ok t ts hs w hw
  | .tupleStruct _ ts, hs, v, h => by
    simp only [Supported] at hs
    rw [Has] at h
    obtain ⟨w, rfl, hw⟩ := h
    simpa only [Serializable, Fits] using hasAll_ok t ts hs w hw
  | .map kt vt, hs, v, h => by
    simp only [Supported] at hs
    rw [Has] at h
    obtain ⟨es, rfl, hl, hw⟩ := h
    have hv := fun e hx => has_ok t vt hs.2 (Prod.snd e) (hw e hx).2
    have hk : ∀ e ∈ es, IsKey e.1 ∧ Fits e.1 := by
      intro e he
      have := (hw e he).1
      rw [hs.1, Has] at this
      obtain ⟨s, h1, h2⟩ := this
      rw [h1]
      simp only [IsKey, Fits, true_and]
      exact lt_64_of_lt_bits h2
    simp only [Serializable, Fits, entriesSerializable_iff, entriesFit_iff]
    refine ⟨fun e he => ⟨(hk e he).1, (hv e he).1⟩, fun n hn => ?_,
      fun e he => ⟨(hk e he).2, (hv e he).2⟩⟩
    simp only [Option.some.injEq] at hn
    subst hn
    exact lt_64_of_lt_bits hl
  | .struct _ fts, hs, v, h => by
    simp only [Supported] at hs
    rw [Has] at h
    obtain ⟨w, rfl, hw⟩ := h
    simpa only [Serializable, Fits] using hasFields_ok t fts hs w hw
  | .enum name vs, hs, v, h => by
    simp only [Supported] at hs
    rw [Has] at h
    exact hasVariant_ok t name 0 vs hs.2 v h
theorem hasAll_ok (t : Target) : (ts : List Ty) → AllSupported ts → (vs : List Val) →
    HasAll t ts vs → AllSerializable vs ∧ AllFit vs
  | [], _, vs, h => by rw [HasAll] at h; subst h; simp [AllSerializable, AllFit]
  | ty :: ts, hs, vs, h => by
    simp only [AllSupported] at hs
    rw [HasAll] at h
    obtain ⟨w, ws, rfl, h1, h2⟩ := h
    have a := has_ok t ty hs.1 w h1
    have b := hasAll_ok t ts hs.2 ws h2
    simp only [AllSerializable, AllFit]
    exact ⟨⟨a.1, b.1⟩, a.2, b.2⟩
theorem hasFields_ok (t : Target) : (fts : List (String × Ty)) → FieldsSupported fts →
    (fs : List (String × Val)) → HasFields t fts fs → FieldsSerializable fs ∧ FieldsFit fs
  | [], _, vs, h => by rw [HasFields] at h; subst h; simp [FieldsSerializable, FieldsFit]
  | (_, ty) :: ts, hs, vs, h => by
    simp only [FieldsSupported] at hs
    rw [HasFields] at h
    obtain ⟨w, ws, rfl, h1, h2⟩ := h
    have a := has_ok t ty hs.1 w h1
    have b := hasFields_ok t ts hs.2 ws h2
    simp only [FieldsSerializable, FieldsFit]
    exact ⟨⟨a.1, b.1⟩, a.2, b.2⟩
theorem hasVariant_ok (t : Target) (name : String) (k : Nat) : (vs : List (String × VTy)) →
    VariantsSupported vs → (v : Val) → HasVariant t name k vs v → Serializable v ∧ Fits v
  | [], _, v, h => by simp [HasVariant] at h
  | (vn, vt) :: vs, hs, v, h => by
    simp only [VariantsSupported] at hs
    rw [HasVariant] at h
    rcases h with h | h
    · exact hasPayload_ok t name _ vn vt hs.1 v h
    · exact hasVariant_ok t name (k + 1) vs hs.2 v h
theorem hasPayload_ok (t : Target) (name : String) (i : UInt32) (vn : String) : (vt : VTy) →
    PayloadSupported vt → (v : Val) → HasPayload t name i vn vt v → Serializable v ∧ Fits v
  | .unit, _, v, h => by rw [HasPayload] at h; subst h; simp [Serializable, Fits]
  | .newtype ty, hs, v, h => by
    simp only [PayloadSupported] at hs
    rw [HasPayload] at h
    obtain ⟨w, rfl, hw⟩ := h
    simpa only [Serializable, Fits] using has_ok t ty hs w hw
  | .tuple ts, hs, v, h => by
    simp only [PayloadSupported] at hs
    rw [HasPayload] at h
    obtain ⟨w, rfl, hw⟩ := h
    simpa only [Serializable, Fits] using hasAll_ok t ts hs w hw
  | .struct fts, hs, v, h => by
    simp only [PayloadSupported] at hs
    rw [HasPayload] at h
    obtain ⟨w, rfl, hw⟩ := h
    simpa only [Serializable, Fits] using hasFields_ok t fts hs w hw
end

end Dlhn.De
