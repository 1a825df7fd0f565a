import Verif.Model.StdTypes
import Verif.Proof.SerImpl
import Verif.Proof.Visit
import Verif.Spec.StdTypes
/-! # Lemmas about the implementations for types of std -/
namespace Dlhn

open Spec De PrefixVarint

namespace StdTypes

theorem writes_iff {p : SerImpl} {enc : List UInt8} : Writes p enc ↔ written p = (enc, none) := by
  rw [Writes, exec_run]
  rcases written p with ⟨o, r⟩
  cases r <;> simp [toResult]

theorem fails_iff {p : SerImpl} {enc : List UInt8} {e : SerErr} :
    p.run.exec = (enc, .err e) ↔ written p = (enc, some e) := by
  rw [exec_run]
  rcases written p with ⟨o, r⟩
  cases r <;> simp [toResult]

theorem written_pair {name n1 n2 : String} {x y : SerImpl} {a b : List UInt8}
    (hx : Writes x a) (hy : Writes y b) : Writes (pairSer name n1 n2 x y) (a ++ b) := by
  rw [writes_iff] at *
  simp [pairSer, written, writtenStruct, following, hx, hy]

theorem run_pair {α β γ : Type} (t : Target) {name n1 n2 : String} (hn : n1 ≠ n2) (s1 : Impl β)
    (s2 : Impl γ) (finish : β → γ → Except DeErr α) :
    (pairDe name n1 n2 s1 s2 finish).run t
      = Prog.bind (s1.run t) fun a => Prog.bind (s2.run t) fun b => ofExcept (finish a b) := by
  simp only [pairDe, Impl.run, pairFields, FieldsImpl.run, if_true, if_neg (Ne.symm hn)]
  congr 1; funext a; congr 1; funext b
  cases finish a b <;> simp [FieldsImpl.run, ofExcept]

theorem reads_bind {α β : Type} {t : Target} {p : Prog DeErr β} {k : β → Prog DeErr α}
    {e1 rest : List UInt8} {b : β} (h : Prog.run t p (e1 ++ rest) = .ok (b, rest)) :
    Prog.run t (Prog.bind p k) (e1 ++ rest) = Prog.run t (k b) rest := by
  rw [Prog.run, Prog.exec_bind]
  rw [Prog.run] at h
  rw [h, Prog.next_ok]; rfl

theorem run_pair_reads {α β γ : Type} {t : Target} {name n1 n2 : String} (hn : n1 ≠ n2)
    {s1 : Impl β} {s2 : Impl γ} {finish : β → γ → Except DeErr α} {e1 e2 : List UInt8} {a : β}
    {b : γ} (h1 : Reads t s1 e1 a) (h2 : Reads t s2 e2 b) (rest : List UInt8) :
    Prog.run t ((pairDe name n1 n2 s1 s2 finish).run t) (e1 ++ e2 ++ rest)
      = match finish a b with
        | .ok v => .ok (v, rest)
        | .error e => .err e := by
  rw [run_pair t hn, List.append_assoc, reads_bind (h1 _), reads_bind (h2 _)]
  cases finish a b <;> rfl

theorem reads_i64 (t : Target) (n : Int64) : Reads t .i64 (varint 64 (zigzag n.toInt)) n :=
  fun rest => by
  rw [Impl.run]; exact deI64_wire t .eof n rest

theorem reads_u64 (t : Target) (n : UInt64) : Reads t .u64 (varint 64 n.toNat) n := fun rest => by
  rw [Impl.run, deU64, Prog.run, exec_u64_varint t .eof _ n.toNat_lt]; simp

theorem reads_u32 (t : Target) (n : UInt32) : Reads t .u32 (varint 32 n.toNat) n := fun rest => by
  rw [Impl.run, deU32, Prog.run, exec_u32_varint t .eof _ n.toNat_lt]; simp

theorem reads_u8 (t : Target) (n : UInt8) : Reads t .u8 [n] n := fun rest => by
  rw [Impl.run, Prog.run, List.singleton_append, deU8_wire]

theorem writes_u64 (n : UInt64) : Writes (.u64 n) (varint 64 n.toNat) := by
  rw [writes_iff, written]
theorem writes_u32 (n : UInt32) : Writes (.u32 n) (varint 32 n.toNat) := by
  rw [writes_iff, written]

theorem make_small (secs : UInt64) (nanos : UInt32) (h : nanos.toNat < 1000000000) :
    StdDuration.make secs nanos = .ok ⟨secs, nanos, h⟩ := by
  have h0 : nanos.toNat / 1000000000 = 0 := Nat.div_eq_of_lt h
  have h1 : nanos.toNat % 1000000000 = nanos.toNat := Nat.mod_eq_of_lt h
  have h2 := secs.toNat_lt
  rw [StdDuration.make, if_pos (by omega)]
  simp only [h0, h1, Nat.add_zero, UInt64.ofNat_toNat, UInt32.ofNat_toNat]

/-! ## Variants -/

theorem run_variantBelow (t : Target) (n i : Nat) (hi : i < 16384) (rest : List UInt8) :
    Prog.run t ((variantBelow n).run t) (varint 32 i ++ rest)
      = if i < n then .ok (UInt16.ofNat i, rest) else .err (.message "invalid value: integer") := by
  have hr : Prog.run t (deU16) (varint 16 i ++ rest) = .ok (UInt16.ofNat i, rest) := by
    rw [deU16, Prog.run, exec_u16_varint t .eof _ (by omega)]
  rw [varint_32_16 i hi, variantBelow, Impl.run, Impl.run, reads_bind hr]
  have : (UInt16.ofNat i).toNat = i := by
    rw [UInt16.toNat_ofNat']; exact Nat.mod_eq_of_lt (by omega)
  rw [this]
  split <;> simp [Impl.run, Prog.run, Prog.exec]

theorem run_enum {α : Type} (t : Target) (name : String) (names : List String) (n i : Nat)
    (hi : i < n) (hn : n ≤ 128) (visit : UInt16 → VariantImpl α) (rest : List UInt8) :
    Prog.run t ((Impl.enum name names (variantBelow n) visit).run t) (varint 32 i ++ rest)
      = Prog.run t ((visit (UInt16.ofNat i)).run t) rest := by
  rw [Impl.run, reads_bind]
  rw [run_variantBelow t n i (by omega), if_pos hi]

theorem run_enum_cons {α : Type} (t : Target) (name : String) (names : List String) (n : Nat)
    {i : Nat} {b : UInt8} (hv : varint 32 i = [b])
    (hi : i < n) (hn : n ≤ 128) (visit : UInt16 → VariantImpl α) (rest : List UInt8) :
    Prog.run t ((Impl.enum name names (variantBelow n) visit).run t) (b :: rest)
      = Prog.run t ((visit (UInt16.ofNat i)).run t) rest := by
  rw [← run_enum t name names n i hi hn, hv]; rfl

theorem run_enum_bad {α : Type} (t : Target) (name : String) (names : List String) (n i : Nat)
    (hi : n ≤ i) (h : i < 16384) (visit : UInt16 → VariantImpl α) (rest : List UInt8) :
    Prog.run t ((Impl.enum name names (variantBelow n) visit).run t) (varint 32 i ++ rest)
      = .err (.message "invalid value: integer") := by
  have := run_variantBelow t n i h rest
  rw [if_neg (by omega)] at this
  rw [Impl.run, Prog.run, Prog.exec_bind]
  rw [Prog.run] at this
  rw [this]; rfl

theorem run_newtype {α β : Type} {t : Target} {seed : Impl β} {k : β → Except DeErr α} {a : α}
    {b : β} {enc : List UInt8} (h : Reads t seed enc b) (hk : k b = .ok a) (rest : List UInt8) :
    Prog.run t ((VariantImpl.newtype seed k).run t) (enc ++ rest) = .ok (a, rest) := by
  rw [VariantImpl.run, reads_bind (h rest), hk]; rfl

theorem written_newtype {name n : String} {i : UInt32} {p : SerImpl} {enc : List UInt8}
    (h : Writes p enc) : Writes (.newtypeVariant name i n p) (varint 32 i.toNat ++ enc) := by
  rw [writes_iff] at *
  simp [written, h]

/-! ## Octets -/

theorem writtenSeq_u8 (bs : List UInt8) : writtenSeq (seqOfVals (bs.map .u8)) = (bs, none) := by
  induction bs with
  | nil => rfl
  | cons b bs ih =>
    simp [seqOfVals, implOfVal, writtenSeq, written, following, ih]

theorem run_octetsSeq (t : Target) (bs acc rest : List UInt8) (m : Nat) (hm : m = bs.length) :
    Prog.run t ((octetsSeq bs.length acc).run t m) (bs ++ rest) = .ok (acc ++ bs, rest) := by
  induction bs generalizing acc m with
  | nil => simp [octetsSeq, SeqImpl.run, Prog.run, Prog.exec]
  | cons b bs ih =>
    subst hm
    rw [List.length_cons, octetsSeq, SeqImpl.run, if_pos (by omega)]
    have h := reads_bind (k := fun b => (octetsSeq bs.length (acc ++ [b])).run t (bs.length + 1 - 1))
      (reads_u8 t b (bs ++ rest))
    rw [List.cons_append, ← List.singleton_append]
    exact h.trans ((ih (acc ++ [b]) _ (by omega)).trans (by simp))

/-! ## Sequences -/

theorem writtenSeq_set {α : Type} {ser : α → SerImpl} {enc : α → List UInt8} (xs : List α)
    (h : ∀ x ∈ xs, Writes (ser x) (enc x)) :
    writtenSeq (setSer.go ser xs) = (xs.flatMap enc, none) := by
  induction xs with
  | nil => rfl
  | cons x xs ih =>
    have h1 := writes_iff.mp (h x List.mem_cons_self)
    have h2 := ih fun y hy => h y (List.mem_cons_of_mem _ hy)
    simp [setSer.go, writtenSeq, following, h1, h2]

theorem run_seq_collect {α : Type} {t : Target} {de : Impl α} {enc : α → List UInt8} (xs : List α)
    (hl : xs.length < 2 ^ t.ptr.bits) (h : ∀ x ∈ xs, Reads t de (enc x) x) (rest : List UInt8) :
    Prog.run t ((Impl.seq fun n => collectSeq de (n + 1) []).run t)
      (lengthWire xs.length ++ xs.flatMap enc ++ rest) = .ok (xs, rest) := by
  have h64 : xs.length < 2 ^ 64 := lt_64_of_lt_bits hl
  have hn : Prog.run t (io decodeU64) (varint 64 xs.length ++ (xs.flatMap enc ++ rest))
      = .ok (UInt64.ofNat xs.length, xs.flatMap enc ++ rest) := by
    rw [Prog.run, exec_u64_varint t .eof _ h64]
  rw [Impl.run, lengthWire, Nat.mod_eq_of_lt h64, List.append_assoc, reads_bind hn,
    asUsize_ofNat hl, run_collectSeq, List.flatMap_def]
  have := exec_times t .eof (de.run t) enc xs rest fun a ha r => h a ha r
  rw [reads_bind this]
  rfl

theorem foldl_setInsert {α : Type} [DecidableEq α] (xs s : List α) (hs : s.Nodup) :
    (xs.foldl (fun s x => setInsert x s) s).Nodup ∧
    ∀ x, x ∈ xs.foldl (fun s x => setInsert x s) s ↔ x ∈ s ∨ x ∈ xs := by
  induction xs generalizing s with
  | nil => simp [hs]
  | cons y ys ih =>
    have hn : (setInsert y s).Nodup := by
      rw [setInsert]; split
      · exact hs
      · rw [List.nodup_append]
        refine ⟨hs, by simp, ?_⟩
        intro a ha b hb hab
        simp only [List.mem_singleton] at hb
        subst hb hab; contradiction
    have hm : ∀ x, x ∈ setInsert y s ↔ x ∈ s ∨ x = y := by
      intro x; rw [setInsert]; split
      · constructor
        · exact .inl
        · rintro (h | rfl) <;> assumption
      · simp
    obtain ⟨h1, h2⟩ := ih _ hn
    refine ⟨h1, fun x => ?_⟩
    rw [List.foldl_cons, h2, hm, List.mem_cons, or_assoc]

theorem foldl_setInsert_nodup {α : Type} [DecidableEq α] (xs s : List α) (h : (s ++ xs).Nodup) :
    xs.foldl (fun s x => setInsert x s) s = s ++ xs := by
  induction xs generalizing s with
  | nil => simp
  | cons y ys ih =>
    have hy : y ∉ s := by
      intro hy
      exact (List.nodup_append.mp h).2.2 y hy y List.mem_cons_self rfl
    rw [List.foldl_cons, setInsert, if_neg hy, ih _ (by simpa using h)]
    simp

end StdTypes
end Dlhn
