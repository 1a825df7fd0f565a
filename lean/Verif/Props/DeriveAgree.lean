import Verif.Proof.DeriveAgree
import Verif.Props.DeriveDe
/-!
# C77, C78: typed and dynamic decoding of the same input
-/
namespace Dlhn.Props

open Spec hiding variantFields
open Derive

/-! ## C77 every input -/

/-- The request for memory was refused. -/
def Refused {α : Type} (o : Outcome DeErr α) : Prop :=
  o = .panic .capacityOverflow ∨ o = .panic .allocFailure

theorem simPart_of {env : Env} {T : RTy} {n : Nat} (hc : Comparable T) (hd : Defaulted env T)
    (hn : EnumsUpTo n T) :
    ∀ U ∈ typeParts T, SimPart env (ChecksTime T) (HasEnum T) n U :=
  fun U hU => ⟨hc U hU, hd U hU, fun h => ⟨U, hU, h⟩, fun name vs h =>
    ⟨⟨name, vs, h ▸ hU⟩, hn name vs (h ▸ hU)⟩⟩

/-- Types without enums: nothing is asked of the data. -/
theorem C77_without (T : RTy) (hE : ¬ HasEnum T) : EnumsUpTo 0 T :=
  fun name vs h => absurd ⟨name, vs, h⟩ hE

theorem C77_anything (bs : List UInt8) : AlikeIndexes 0 bs :=
  fun _ _ => .inr ⟨fun _ _ _ => Nat.zero_le _, fun _ _ _ => Nat.zero_le _⟩

/-- Types with enums: it is enough that every byte of 192 or more is the last one or followed by
one that is, as a number, at least the number of variants. -/
theorem C77_followed (n : Nat) (bs : List UInt8)
    (h : ∀ pre b x post, bs = pre ++ b :: x :: post → 0xC0 ≤ b → n ≤ x.toNat) :
    AlikeIndexes n bs := by
  rintro r ⟨pre, rfl⟩
  match r, h with
  | [], _ => exact .inl rfl
  | b :: r, h =>
    by_cases hb : b < 0xC0
    · exact .inl (varintDecode_first hb r).1
    · have hb := UInt8.not_lt.mp hb
      right
      match r, h with
      | [], _ =>
        rw [varintDecode_alone hb (by decide), varintDecode_alone hb (by decide)]
        exact ⟨nofun, nofun⟩
      | x :: r, h =>
        have hx := h pre b x r rfl hb
        exact ⟨fun i rest hi => Nat.le_trans hx (varintDecode_large hb r (by decide) hi),
          fun i rest hi => Nat.le_trans hx (varintDecode_large hb r (by decide) hi)⟩

/-- So data without bytes of 192 or more are read alike. -/
theorem C77_low (n : Nat) (bs : List UInt8) (h : ∀ x ∈ bs, x < 0xC0) : AlikeIndexes n bs :=
  C77_followed n bs fun pre b x post he hb => by
    have := h b (by simp [he])
    have h1 : b.toNat < 192 := this
    have h2 : 192 ≤ b.toNat := hb
    omega

/-- So are data in which a byte of 192 or more only occurs before one of 128 or more, as in all
texts of UTF-8, for enums of up to 128 variants. -/
theorem C77_text (bs : List UInt8)
    (h : ∀ pre b x post, bs = pre ++ b :: x :: post → 0xC0 ≤ b → 0x80 ≤ x) : AlikeIndexes 128 bs :=
  C77_followed 128 bs fun pre b x post he hb => h pre b x post he hb

/-- What the typed decoder accepts the dynamic decoder accepts too, with the same
content and the same number of bytes, unless it is refused memory. -/
theorem C77_typed (t : Target) (h64 : t.ptr = .w64) (mode : BuildMode) (size : Nat) (env : Env)
    (ho : FairOrder env) (T : RTy) (h : Header) (hh : Announces T h) (hc : Comparable T)
    (hd : Defaulted env T) (fin : Ending) (bs rest : List UInt8) (n : Nat) (hn : EnumsUpTo n T)
    (hb : AlikeIndexes n bs) (w : Carrier T)
    (hw : Prog.exec t fin (deTy t mode env T) bs = .ok (w, rest)) :
    (∃ b, Prog.exec t fin (Body.de t mode size h) bs = .ok (b, rest) ∧ SameContent T w b) ∨
      Refused (Prog.exec t fin (Body.de t mode size h) bs) := by
  have := sim h64 mode size env ho T h ((announces_iff T h).mp hh).1
    (simPart_of hc hd hn) fin bs hb
  rw [hw] at this
  revert this
  generalize Prog.exec t fin (Body.de t mode size h) bs = o
  intro hcmp
  cases hcmp with
  | both a b r hR _ => exact .inl ⟨b, rfl, hR⟩
  | refused _ k hk => exact .inr (by rcases hk with rfl | rfl; exact .inl rfl; exact .inr rfl)
  | rejected _ _ _ ho => exact absurd rfl (ho _)

/-- What the dynamic decoder accepts the typed decoder accepts too, with the same
content and the same number of bytes, unless the type checks dates and times. -/
theorem C77_dynamic (t : Target) (h64 : t.ptr = .w64) (mode : BuildMode) (size : Nat) (env : Env)
    (ho : FairOrder env) (T : RTy) (h : Header) (hh : Announces T h) (hc : Comparable T)
    (hd : Defaulted env T) (fin : Ending) (bs rest : List UInt8) (n : Nat) (hn : EnumsUpTo n T)
    (hb : AlikeIndexes n bs) (b : Body)
    (hw : Prog.exec t fin (Body.de t mode size h) bs = .ok (b, rest)) :
    (∃ w, Prog.exec t fin (deTy t mode env T) bs = .ok (w, rest) ∧ SameContent T w b) ∨
      (ChecksTime T ∧ ∀ x, Prog.exec t fin (deTy t mode env T) bs ≠ .ok x) := by
  have := sim h64 mode size env ho T h ((announces_iff T h).mp hh).1
    (simPart_of hc hd hn) fin bs hb
  rw [hw] at this
  revert this
  generalize Prog.exec t fin (deTy t mode env T) bs = o
  intro hcmp
  cases hcmp with
  | both a b r hR _ => exact .inl ⟨a, rfl, hR⟩
  | rejected _ _ hN ho => exact .inr ⟨hN, ho⟩

/-- Where neither enums nor checked dates are involved, the decoders report the
same errors. -/
theorem C77_errors (t : Target) (h64 : t.ptr = .w64) (mode : BuildMode) (size : Nat) (env : Env)
    (ho : FairOrder env) (T : RTy) (h : Header) (hh : Announces T h) (hc : Comparable T)
    (hd : Defaulted env T) (hE : ¬ HasEnum T) (hN : ¬ ChecksTime T) (fin : Ending)
    (bs : List UInt8) (e : DeErr) :
    (Prog.exec t fin (Body.de t mode size h) bs = .err e →
      Prog.exec t fin (deTy t mode env T) bs = .err e) ∧
    (Prog.exec t fin (deTy t mode env T) bs = .err e →
      Prog.exec t fin (Body.de t mode size h) bs = .err e ∨
        Refused (Prog.exec t fin (Body.de t mode size h) bs)) := by
  have := sim h64 mode size env ho T h ((announces_iff T h).mp hh).1
    (simPart_of hc hd (C77_without T hE)) fin bs (C77_anything bs)
  revert this
  generalize Prog.exec t fin (deTy t mode env T) bs = o
  generalize Prog.exec t fin (Body.de t mode size h) bs = o'
  intro hcmp
  cases hcmp with
  | both a b r hR _ => exact ⟨nofun, nofun⟩
  | errors e1 e2 he =>
    have : e1 = e2 := he.resolve_left hE
    subst this
    exact ⟨fun h => by simpa using h, fun h => .inl (by simpa using h)⟩
  | panics k => exact ⟨nofun, nofun⟩
  | refused _ k hk =>
    exact ⟨nofun, fun _ => .inr (by rcases hk with rfl | rfl; exact .inl rfl; exact .inr rfl)⟩
  | rejected _ _ h _ => exact absurd h hN

/-- `struct Ledger { balances: HashMap<String, num_bigint::BigUint>, day: time::Date }`. -/
def ledgerTy : RTy := .struct "Ledger"
  (.named [.mk [] "balances" (.hashMap .numBigUint), .mk [] "day" .timeDate])
def ledgerHeader : Header := .tuple [.map .bigUInt, .date]

theorem ledger_meets (env : Env) : Announces ledgerTy ledgerHeader ∧ Comparable ledgerTy ∧
    Defaulted env ledgerTy ∧ ¬ HasEnum ledgerTy := by
  have k1 : ¬ Skipped [] := by decide
  have d1 : ¬ SkippedDe [] := by decide
  have c1 : ¬ Conditional [] := by decide
  have hp : typeParts ledgerTy = [ledgerTy, .hashMap .numBigUint, .numBigUint, .timeDate] := by
    simp [ledgerTy, typeParts, typePartsFields, k1]
  refine ⟨(announces_iff _ _).mpr ⟨?_, by simp [ledgerHeader, Countable, AllCountable]⟩,
    ?_, ?_, ?_⟩
  · refine .struct _ _ _ ?_ ?_
    · intro f hf
      simp only [declared, List.mem_cons, List.not_mem_nil, or_false] at hf
      rcases hf with rfl | rfl <;> exact c1
    · exact .cons _ _ _ _ (.hashMap _ _ .numBigUint) (.cons _ _ _ _ .timeDate .nil)
  · intro U hU
    rw [hp] at hU
    simp only [List.mem_cons, List.not_mem_nil, or_false] at hU
    rcases hU with rfl | rfl | rfl | rfl <;>
      simp [ledgerTy, ComparablePart, ReadablePart, PlainPart, SymmetricPart, SymmetricFields,
        fieldAttrs, k1, d1, c1]
  · intro U hU
    rw [hp] at hU
    simp only [List.mem_cons, List.not_mem_nil, or_false] at hU
    rcases hU with rfl | rfl | rfl | rfl <;>
      simp [ledgerTy, DefaultedPart, DefaultedFields, declared, fieldAttrs, d1]
  · rintro ⟨name, vs, h⟩
    rw [hp] at h
    simp [ledgerTy] at h

/-- An input no writer produces: a key twice and a number with leading zeros. Both
decoders take it, keep the last value of the key and see the same numbers. -/
example (mode : BuildMode) :
    Prog.run ⟨.w64, 4096⟩ (deTy ⟨.w64, 4096⟩ mode sampleEnv ledgerTy)
        [3, 1, 98, 1, 5, 1, 97, 2, 7, 0, 1, 98, 1, 6, 4, 0, 9] =
      .ok (([("a", 7), ("b", 6)], ⟨2002, 1⟩, ()), [9]) ∧
    Prog.run ⟨.w64, 4096⟩ (Body.de ⟨.w64, 4096⟩ mode 32 ledgerHeader)
        [3, 1, 98, 1, 5, 1, 97, 2, 7, 0, 1, 98, 1, 6, 4, 0, 9] =
      .ok (.tuple [.map [("a", .bigUInt ⟨[7, 0]⟩), ("b", .bigUInt ⟨[6]⟩)], .date ⟨2002, 1⟩], [9]) := by
  cases mode <;> exact ⟨rfl, rfl⟩

/-- The theorems apply to it. -/
example (t : Target) (h64 : t.ptr = .w64) (mode : BuildMode) (size : Nat) (env : Env)
    (ho : FairOrder env) (bs rest : List UInt8) (w : Carrier ledgerTy)
    (hw : Prog.run t (deTy t mode env ledgerTy) bs = .ok (w, rest)) :
    (∃ b, Prog.run t (Body.de t mode size ledgerHeader) bs = .ok (b, rest) ∧
      SameContent ledgerTy w b) ∨ Refused (Prog.run t (Body.de t mode size ledgerHeader) bs) := by
  obtain ⟨h1, h2, h3, h4⟩ := ledger_meets env
  exact C77_typed t h64 mode size env ho _ _ h1 h2 h3 .eof bs rest 0 (C77_without _ h4)
    (C77_anything bs) w hw

/-- The exception for dates and times is needed: the 366th day of 2001 is kept by the
dynamic decoder and rejected by the typed one. -/
theorem C77_checked (t : Target) (mode : BuildMode) (size : Nat) (env : Env) :
    Prog.run t (Body.de t mode size .date) [2, 0xAD, 5] = .ok (.date ⟨2001, 366⟩, []) ∧
    ∃ e, Prog.run t (deTy t mode env .timeDate) [2, 0xAD, 5] = .err e := by
  cases mode <;> exact ⟨rfl, _, rfl⟩

/-! ## C78 enum indices -/

/-- Both decoders read the index of a variant alike exactly if its first byte is
below 192, or if it is the overlong zero `C0 00 00`. -/
theorem C78_index (t : Target) (b : UInt8) (bs : List UInt8) (i : UInt16) (k : UInt32)
    (r r' : List UInt8) (hi : Prog.run t De.deU16 (b :: bs) = .ok (i, r))
    (hk : Prog.run t De.deU32 (b :: bs) = .ok (k, r')) :
    (i.toNat = k.toNat ∧ r = r') ↔
      (b < 0xC0 ∨ (b = 0xC0 ∧ ∃ tail, bs = 0 :: 0 :: tail)) := by
  by_cases hb : b < 0xC0
  · refine ⟨fun _ => .inl hb, fun _ => ?_⟩
    obtain ⟨h1, h2⟩ := varintDecode_first hb bs
    rw [Prog.run, De.deU16, De.exec_u16] at hi
    rw [Prog.run, De.deU32, De.exec_u32, ← h1] at hk
    cases h : varintDecode 16 (b :: bs) with
    | none => rw [h] at hi; cases hi
    | some x =>
      obtain ⟨v, r0⟩ := x
      have hv := h2 v r0 h
      rw [h] at hi hk
      simp only [De.ofDec, Outcome.ok.injEq, Prod.mk.injEq] at hi hk
      refine ⟨?_, hi.2.symm.trans hk.2⟩
      rw [← hi.1, ← hk.1, UInt16.toNat_ofNat', UInt32.toNat_ofNat']
      omega
  · have hb' : 192 ≤ b.toNat := Nat.le_of_not_lt hb
    have hr := PrefixVarint.leadingOnes_range b
    have hlt := b.toNat_lt
    rw [Prog.run, De.deU16, De.exec_u16, varintDecode, extraBytes] at hi
    rw [Prog.run, De.deU32, De.exec_u32, varintDecode, extraBytes] at hk
    have hbeq : b = 0xC0 ↔ b.toNat = 192 := by rw [← UInt8.toNat_inj]; rfl
    rw [hbeq]
    generalize Spec.leadingOnes b = n at hr hi hk
    have hn2 : 2 ≤ n := by
      have h3 := hr.2.2
      match n, h3 with
      | 0, h3 => simp at h3; omega
      | 1, h3 => simp at h3; omega
      | n + 2, _ => omega
    simp only [Nat.reduceDiv, Nat.min_eq_right hn2, if_neg (Nat.not_lt.mpr hn2)] at hi
    match bs, hi with
    | [], hi => simp [De.ofDec] at hi
    | [x], hi => simp [De.ofDec] at hi
    | x :: y :: tail, hi =>
      simp only [List.length_cons, if_neg (by omega : ¬ tail.length + 1 + 1 < 2), De.ofDec,
        Outcome.ok.injEq, Prod.mk.injEq, List.take_succ_cons, List.take_zero, List.drop_succ_cons,
        List.drop_zero, leValue] at hi
      obtain ⟨hi1, hi2⟩ := hi
      have hx := x.toNat_lt
      have hy := y.toNat_lt
      have hi' : i.toNat = x.toNat + 256 * y.toNat := by
        rw [← hi1, UInt16.toNat_ofNat']; omega
      have hx0 : x = 0 ↔ x.toNat = 0 := by rw [← UInt8.toNat_inj]; rfl
      have hy0 : y = 0 ↔ y.toNat = 0 := by rw [← UInt8.toNat_inj]; rfl
      have hzero : (∃ t', x :: y :: tail = 0 :: 0 :: t') ↔ x.toNat = 0 ∧ y.toNat = 0 := by
        rw [← hx0, ← hy0]
        simp
      have hb2 : ¬ b.toNat < 192 := by omega
      rw [hzero]
      match n, hn2, hr, hk with
      | 2, _, hr, hk =>
        have h224 : b.toNat < 224 := by have := hr.2.2; simp at this; omega
        simp only [Nat.reduceDiv, Nat.reduceLT, if_true, List.length_cons, Nat.min_def,
          Nat.reduceLeDiff, if_neg (by omega : ¬ tail.length + 1 + 1 < 2), De.ofDec, Outcome.ok.injEq,
          Prod.mk.injEq, List.take_succ_cons, List.take_zero, List.drop_succ_cons, List.drop_zero,
          leValue, Nat.reduceSub, Nat.reducePow] at hk
        have hk' : k.toNat = b.toNat % 32 + 32 * (x.toNat + 256 * y.toNat) := by
          rw [← hk.1, UInt32.toNat_ofNat']; omega
        have hrr : r = r' := hi2.symm.trans hk.2
        rw [hi', hk']
        constructor
        · rintro ⟨h, -⟩
          right
          omega
        · rintro (h | ⟨h1, h2, h3⟩)
          · exact absurd h hb
          · exact ⟨by omega, hrr⟩
      | n + 3, _, hr, hk =>
        have h224 : 224 ≤ b.toNat := by
          have h2 := hr.2.1
          have : 2 ^ (8 - (n + 3)) ≤ 2 ^ 5 := Nat.pow_le_pow_right (by omega) (by omega)
          omega
        have hlen : r'.length < tail.length := by
          have hm : 3 ≤ min (n + 3) (32 / 8) := by omega
          generalize min (n + 3) (32 / 8) = m at hm hk
          split at hk
          · cases hk
          · rename_i hl
            rw [List.length_cons, List.length_cons] at hl
            split at hk <;>
            · simp only [De.ofDec, Outcome.ok.injEq, Prod.mk.injEq] at hk
              rw [← hk.2, List.length_drop, List.length_cons, List.length_cons]
              omega
        constructor
        · rintro ⟨-, h⟩
          rw [← h, ← hi2] at hlen
          exact absurd hlen (Nat.lt_irrefl _)
        · rintro (h | ⟨h1, -⟩)
          · exact absurd h hb
          · omega

/-- An enum without enums in its payloads: on every input that is empty or starts with
a byte below 192 the decoders agree. -/
theorem C78_agree (t : Target) (h64 : t.ptr = .w64) (mode : BuildMode) (size : Nat) (env : Env)
    (ho : FairOrder env) (name : String) (vs : List RVariant) (h : Header)
    (hh : Announces (.enum name vs) h) (hc : Comparable (.enum name vs))
    (hd : Defaulted env (.enum name vs))
    (hin : ∀ n us, .enum n us ∉ typePartsVariants vs) (hN : ¬ ChecksTime (.enum name vs))
    (fin : Ending) (bs : List UInt8) (hb : ∀ b ∈ bs.head?, b < 0xC0) :
    (∀ w rest, Prog.exec t fin (deTy t mode env (.enum name vs)) bs = .ok (w, rest) →
      (∃ b, Prog.exec t fin (Body.de t mode size h) bs = .ok (b, rest) ∧
        SameContent (.enum name vs) w b) ∨
      Refused (Prog.exec t fin (Body.de t mode size h) bs)) ∧
    (∀ b rest, Prog.exec t fin (Body.de t mode size h) bs = .ok (b, rest) →
      ∃ w, Prog.exec t fin (deTy t mode env (.enum name vs)) bs = .ok (w, rest) ∧
        SameContent (.enum name vs) w b) := by
  have hp : ∀ U ∈ typePartsVariants vs, SimPart env False True 0 U := fun U hU =>
    have hU' : U ∈ typeParts (.enum name vs) := by simp [typeParts, hU]
    ⟨hc U hU', hd U hU', fun h => hN ⟨U, hU', h⟩, fun n us h => absurd (h ▸ hU) (hin n us)⟩
  have hcmp : Compare False True 0 (SameContent (.enum name vs))
      (Prog.exec t fin (deTy t mode env (.enum name vs)) bs)
      (Prog.exec t fin (Body.de t mode size h) bs) := by
    cases ((announces_iff _ _).mp hh).1 with
    | enum _ _ hs hcond hd' =>
    have hcc := hc _ (self_mem_typeParts _)
    have hplain : ∀ v ∈ vs, ¬ Skipped (variantAttrs v) ∧
      ∀ f ∈ Spec.variantFields v, ¬ Skipped (fieldAttrs f) ∧ ¬ Conditional (fieldAttrs f) := hcc.2.1
    have hsym : vs.length ≤ 16384 ∧ ∀ v ∈ vs, ¬ Skipped (variantAttrs v) ∧
      ¬ SkippedDe (variantAttrs v) ∧ SymmetricFields (Spec.variantFields v) := hcc.2.2
    rw [List.filter_eq_self.mpr fun v hvm => decide_eq_true (hplain v hvm).1] at hd'
    rw [deTy, Body.de, Prog.bind_eq, Prog.bind_eq, Prog.exec_bind, Prog.exec_bind]
    rw [De.deU16, De.deU32, De.exec_u16, De.exec_u32]
    cases bs with
    | nil => exact .errors _ _ (.inr rfl)
    | cons b bs =>
      obtain ⟨h1, h2⟩ := varintDecode_first (hb b (by simp)) bs
      rw [← h1]
      cases hv : varintDecode 16 (b :: bs) with
      | none => exact .errors _ _ (.inr rfl)
      | some x =>
        obtain ⟨v, r⟩ := x
        have hvl := h2 v r hv
        simp only [De.ofDec, Prog.next_ok]
        rw [UInt16.toNat_ofNat', UInt32.toNat_ofNat', Nat.mod_eq_of_lt (by omega : v < 2 ^ 16),
          Nat.mod_eq_of_lt (by omega : v < 2 ^ 32)]
        exact (sim_variant h64 mode size env ho vs hs hd' hplain hsym.2 hp trivial 0 v).map
          (fun w c hwc => by
            rw [SameContent]
            exact hwc (UInt32.ofNat v) (by rw [UInt32.toNat_ofNat']; omega)) fin r (C77_anything r)
  revert hcmp
  generalize Prog.exec t fin (deTy t mode env (.enum name vs)) bs = o
  generalize Prog.exec t fin (Body.de t mode size h) bs = o'
  intro hcmp
  cases hcmp with
  | both a b r hR _ =>
    refine ⟨fun w rest hw => .inl ⟨b, ?_⟩, fun c rest hw => ⟨a, ?_⟩⟩ <;>
    · simp only [Outcome.ok.injEq, Prod.mk.injEq] at hw
      obtain ⟨rfl, rfl⟩ := hw
      exact ⟨rfl, hR⟩
  | errors e1 e2 _ => exact ⟨nofun, nofun⟩
  | panics k => exact ⟨nofun, nofun⟩
  | refused _ k hk =>
    exact ⟨fun _ _ _ => .inr (by rcases hk with rfl | rfl; exact .inl rfl; exact .inr rfl), nofun⟩
  | rejected _ _ h _ => exact h.elim

/-- `enum Command { Stop, Move(i32), Say { text: String, times: u8 } }`. -/
def commandTy : RTy := .enum "Command" [.mk [] "Stop" .unit,
  .mk [] "Move" (.unnamed [.mk [] "0" .i32]),
  .mk [] "Say" (.named [.mk [] "text" .string, .mk [] "times" .u8])]
def commandHeader : Header := .enum [.unit, .int32, .tuple [.string, .uint8]]

/-- It meets the hypotheses of `C78_agree`. -/
theorem command_meets (env : Env) : Announces commandTy commandHeader ∧ Comparable commandTy ∧
    Defaulted env commandTy ∧ ¬ ChecksTime commandTy ∧
    typeParts commandTy = [commandTy, .i32, .string, .u8] := by
  have k1 : ¬ Skipped [] := by decide
  have d1 : ¬ SkippedDe [] := by decide
  have c1 : ¬ Conditional [] := by decide
  have hp : typeParts commandTy = [commandTy, .i32, .string, .u8] := by
    simp [commandTy, typeParts, typePartsVariants, typePartsFields, k1]
  refine ⟨(announces_iff _ _).mpr ⟨.enum _ _ _ ?_ ?_,
    by simp [commandHeader, Countable, AllCountable]⟩, ?_, ?_, ?_, hp⟩
  · intro v hv
    simp only [List.mem_cons, List.not_mem_nil, or_false] at hv
    rcases hv with rfl | rfl | rfl <;> exact c1
  · exact .cons _ _ _ _ .none (.cons _ _ _ _ (.one _ _ .i32) (.cons _ _ _ _ (.many _ _ (by decide)
      (.cons _ _ _ _ .string (.cons _ _ _ _ .u8 .nil))) .nil))
  · intro U hU
    rw [hp] at hU
    simp only [List.mem_cons, List.not_mem_nil, or_false] at hU
    rcases hU with rfl | rfl | rfl | rfl <;>
      simp [commandTy, ComparablePart, ReadablePart, PlainPart, SymmetricPart, SymmetricFields,
        Spec.variantFields, variantAttrs, declared, fieldAttrs, k1, d1, c1]
  · intro U hU
    rw [hp] at hU
    simp only [List.mem_cons, List.not_mem_nil, or_false] at hU
    rcases hU with rfl | rfl | rfl | rfl <;>
      simp [commandTy, DefaultedPart, DefaultedFields, Spec.variantFields, declared, fieldAttrs, d1]
  · rintro ⟨U, hU, hc⟩
    rw [hp] at hU
    simp only [List.mem_cons, List.not_mem_nil, or_false] at hU
    rcases hU with rfl | rfl | rfl | rfl <;> simp [commandTy, CheckedPart] at hc

/-- An overlong index, and payload bytes above 192: the decoders agree. -/
example (env : Env) :
    Prog.run ⟨.w64, 4096⟩ (deTy ⟨.w64, 4096⟩ .release env commandTy)
        [0x82, 0, 2, 104, 105, 0xFF] = .ok (.inr (.inr (.inl ("hi", 255, ()))), []) ∧
    Prog.run ⟨.w64, 4096⟩ (Body.de ⟨.w64, 4096⟩ .release 32 commandHeader)
        [0x82, 0, 2, 104, 105, 0xFF] = .ok (.enum 2 (.tuple [.string "hi", .uint8 255]), []) :=
  ⟨rfl, rfl⟩

/-- The theorem applies to it. -/
example (t : Target) (h64 : t.ptr = .w64) (mode : BuildMode) (size : Nat) (env : Env)
    (ho : FairOrder env) (b : UInt8) (hb : b < 0xC0) (bs rest : List UInt8) (c : Body)
    (hc : Prog.run t (Body.de t mode size commandHeader) (b :: bs) = .ok (c, rest)) :
    ∃ w, Prog.run t (deTy t mode env commandTy) (b :: bs) = .ok (w, rest) ∧
      SameContent commandTy w c := by
  obtain ⟨h1, h2, h3, h4, h5⟩ := command_meets env
  refine (C78_agree t h64 mode size env ho _ _ _ h1 h2 h3 ?_ h4 .eof (b :: bs)
    (by simpa using hb)).2 c rest hc
  intro n us h
  have k1 : ¬ Skipped [] := by decide
  simp [typePartsVariants, typePartsFields, typeParts, k1] at h

/-- C77 for an enum and a text with a letter outside ASCII, whose first byte is above 192. -/
example (t : Target) (h64 : t.ptr = .w64) (mode : BuildMode) (size : Nat) (env : Env)
    (ho : FairOrder env) (w : Carrier commandTy) (rest : List UInt8)
    (hw : Prog.run t (deTy t mode env commandTy) [2, 2, 0xC3, 0xA9, 5] = .ok (w, rest)) :
    (∃ b, Prog.run t (Body.de t mode size commandHeader) [2, 2, 0xC3, 0xA9, 5] = .ok (b, rest) ∧
      SameContent commandTy w b) ∨
        Refused (Prog.run t (Body.de t mode size commandHeader) [2, 2, 0xC3, 0xA9, 5]) := by
  obtain ⟨h1, h2, h3, h4, h5⟩ := command_meets env
  refine C77_typed t h64 mode size env ho _ _ h1 h2 h3 .eof _ rest 128 ?_ (C77_text _ ?_) w hw
  · intro n us h
    rw [h5] at h
    simp only [commandTy, List.mem_cons, RTy.enum.injEq, List.not_mem_nil, or_false, reduceCtorEq]
      at h
    rw [h.2]
    decide
  · intro pre b x post he hb
    match pre, he with
    | [], he => simp at he; rw [← he.1] at hb; exact absurd hb (by decide)
    | [_], he => simp at he; rw [← he.2.1] at hb; exact absurd hb (by decide)
    | [_, _], he => simp at he; rw [← he.2.2.2.1]; decide
    | [_, _, _], he => simp at he; rw [← he.2.2.2.1] at hb; exact absurd hb (by decide)
    | _ :: _ :: _ :: _ :: pre, he =>
      have := congrArg List.length he
      simp only [List.cons_append, List.length_cons, List.length_append, List.length_nil] at this
      omega

example (env : Env) : Prog.run ⟨.w64, 4096⟩ (deTy ⟨.w64, 4096⟩ .release env commandTy)
    [2, 2, 0xC3, 0xA9, 5] = .ok (.inr (.inr (.inl ("é", 5, ()))), []) := rfl

/-- `enum Switch { Off, On }`. -/
def switchTy : RTy := .enum "Switch" [.mk [] "Off" .unit, .mk [] "On" .unit]

/-- The same three bytes are `Off` for the typed and `On` for the dynamic decoder. -/
theorem C78_differ (t : Target) (mode : BuildMode) (size : Nat) (env : Env) :
    Announces switchTy (.enum [.unit, .unit]) ∧
    Prog.run t (deTy t mode env switchTy) [0xC1, 0, 0] = .ok (.inl (), []) ∧
    Prog.run t (Body.de t mode size (.enum [.unit, .unit])) [0xC1, 0, 0] =
      .ok (.enum 1 .unit, []) := by
  refine ⟨(announces_iff _ _).mpr ⟨.enum _ _ _ ?_ ?_, by simp [Countable, AllCountable]⟩,
    rfl, rfl⟩
  · intro v hv
    simp only [List.mem_cons, List.not_mem_nil, or_false] at hv
    rcases hv with rfl | rfl <;> decide
  · exact .cons _ _ _ _ .none (.cons _ _ _ _ .none .nil)

/-- It is the condition of C77 that these bytes do not meet. -/
theorem C77_needed : ¬ AlikeIndexes 2 [0xC1, 0, 0] := by
  intro h
  rcases h _ (List.suffix_refl _) with h | h
  · revert h
    decide +kernel
  · exact absurd (h.1 0 [] (by decide +kernel)) (by decide)

end Dlhn.Props
