import Verif.Spec.Sends
import Verif.Proof.DeriveSer
import Verif.Proof.SerImpl
import Verif.Proof.Header
/-! # Calls made on writers -/
namespace Dlhn

open Spec hiding variantFields

/-! ## Calls of `write` -/

theorem WScript.writeCalls_nil (s : WScript) : WScript.writeCalls [] s = 0 := by
  cases s with
  | nil => simp [WScript.writeCalls]
  | cons ev s => cases ev with
    | accept n => cases n <;> simp [WScript.writeCalls]
    | _ => simp [WScript.writeCalls]

theorem WScript.writeAll_empty (s : WScript) : WScript.writeAll [] s = ([], none, s) := by
  cases s with
  | nil => simp [WScript.writeAll]
  | cons ev s => cases ev with
    | accept n => cases n <;> simp [WScript.writeAll]
    | _ => simp [WScript.writeAll]

theorem WScript.writeCalls_le (bs : List UInt8) (s : WScript) :
    WScript.writeCalls bs s + (WScript.writeAll bs s).2.2.count .interrupted
      ≤ (WScript.writeAll bs s).1.length + s.count .interrupted
        + (if (WScript.writeAll bs s).2.1 = none then 0 else 1) := by
  induction s generalizing bs with
  | nil =>
    rw [WScript.writeCalls, WScript.writeAll]
    cases bs <;> simp
  | cons ev s ih =>
    by_cases hb : bs = []
    · rw [hb, WScript.writeCalls_nil, WScript.writeAll_empty]; simp
    · cases ev with
      | interrupted =>
        have := ih bs
        rw [WScript.writeCalls, WScript.writeAll, if_neg hb, if_neg hb, List.count_cons_self]
        omega
      | fail e =>
        rw [WScript.writeCalls, WScript.writeAll, if_neg hb, if_neg hb]
        simp; omega
      | accept n =>
        cases n with
        | zero =>
          rw [WScript.writeCalls, WScript.writeAll, if_neg hb, if_neg hb]
          simp; omega
        | succ n =>
          have h := ih (bs.drop (n + 1))
          have hl : 1 ≤ (bs.take (n + 1)).length := by
            cases bs with
            | nil => exact absurd rfl hb
            | cons b bs => simp
          rw [WScript.writeCalls, WScript.writeAll, if_neg hb, if_neg hb,
            List.count_cons_of_ne (by simp)]
          simp only [List.length_append]
          omega

theorem WScript.writeCalls_hindered (bs : List UInt8) (s : WScript) :
    WScript.writeCalls bs s + (WScript.writeAll bs s).2.2.countP hindrance
      ≤ (WScript.writeAll bs s).1.length + s.countP hindrance := by
  induction s generalizing bs with
  | nil =>
    rw [WScript.writeCalls, WScript.writeAll]
    cases bs <;> simp
  | cons ev s ih =>
    by_cases hb : bs = []
    · rw [hb, WScript.writeCalls_nil, WScript.writeAll_empty]; simp
    · cases ev with
      | interrupted =>
        have := ih bs
        rw [WScript.writeCalls, WScript.writeAll, if_neg hb, if_neg hb,
          List.countP_cons_of_pos (by rfl)]
        omega
      | fail e =>
        rw [WScript.writeCalls, WScript.writeAll, if_neg hb, if_neg hb,
          List.countP_cons_of_pos (by rfl)]
        simp; omega
      | accept n =>
        cases n with
        | zero =>
          rw [WScript.writeCalls, WScript.writeAll, if_neg hb, if_neg hb,
            List.countP_cons_of_pos (by rfl)]
          simp; omega
        | succ n =>
          have h := ih (bs.drop (n + 1))
          have hl : 1 ≤ (bs.take (n + 1)).length := by
            cases bs with
            | nil => exact absurd rfl hb
            | cons b bs => simp
          rw [WScript.writeCalls, WScript.writeAll, if_neg hb, if_neg hb,
            List.countP_cons_of_neg (by simp [hindrance])]
          simp only [List.length_append]
          omega

theorem WProg.writeCalls_le {ε : Type} (p : WProg ε) (s : WScript) :
    p.writeCalls s ≤ (p.runScript s).1.length + s.count .interrupted + 1 ∧
    ((p.runScript s).2 = .ok () →
      p.writeCalls s ≤ (p.runScript s).1.length + s.count .interrupted) := by
  induction p generalizing s with
  | done o => simp [WProg.writeCalls]
  | writeAll bs f k ih =>
    have h := WScript.writeCalls_le bs s
    rw [WProg.writeCalls, WProg.runScript]
    rcases hw : WScript.writeAll bs s with ⟨out, r, s'⟩
    rw [hw] at h
    cases r with
    | some e => simp at h ⊢; omega
    | none =>
      have hk := ih s'
      simp only [if_true, List.length_append] at h hk ⊢
      exact ⟨by omega, fun hok => by have := hk.2 hok; omega⟩

theorem WCode.writeCalls_le (p : WCode) (s : WScript) :
    p.writeCalls s ≤ (p.runScript s).1.length + s.countP hindrance := by
  induction p generalizing s with
  | done o => simp [WCode.writeCalls]
  | writeAll bs k ih =>
    have h := WScript.writeCalls_hindered bs s
    rw [WCode.writeCalls, WCode.runScript]
    rcases hw : WScript.writeAll bs s with ⟨out, r, s'⟩
    rw [hw] at h
    have hk := ih r s'
    simp only [List.length_append] at h hk ⊢
    omega

/-! ## Buffers -/

theorem flatten_sends {ε : Type} (p : WProg ε) : (sends p).flatten = p.exec.1 := by
  induction p with
  | done o => rfl
  | writeAll bs f k ih => rw [sends, List.flatten_cons, ih]; rfl

theorem flatten_sendsImpl (p : WCode) : (sendsImpl p).flatten = p.exec.1 := by
  induction p with
  | done o => rfl
  | writeAll bs k ih => rw [sendsImpl, List.flatten_cons, ih]; rfl

/-- At most two calls per byte. -/
def Frugal {ε : Type} (p : WProg ε) : Prop := (sends p).length ≤ 2 * p.exec.1.length

/-- At most two calls per byte. -/
def FrugalImpl (p : WCode) : Prop := (sendsImpl p).length ≤ 2 * p.exec.1.length

theorem frugal_done {ε : Type} (o : Outcome ε Unit) : Frugal (.done o) := Nat.zero_le _

theorem Frugal.cons {ε : Type} {bs : List UInt8} {f : IoErr → ε} {k : WProg ε} (h : bs ≠ [])
    (hk : Frugal k) : Frugal (.writeAll bs f k) := by
  have : 1 ≤ bs.length := List.length_pos_iff.mpr h
  simp only [Frugal, sends, WProg.exec, List.length_cons, List.length_append] at *
  omega

theorem Frugal.andThen {ε : Type} {p q : WProg ε} (hp : Frugal p) (hq : Frugal q) :
    Frugal (p.andThen q) := by
  have key : (sends (p.andThen q)).length + 2 * p.exec.1.length
      ≤ (sends p).length + 2 * (p.andThen q).exec.1.length := by
    clear hp
    induction p with
    | done o =>
      cases o with
      | ok u => simp only [WProg.andThen, sends, WProg.exec, List.length_nil]; exact (by
          have := hq; simp only [Frugal] at this; omega)
      | err e => simp [WProg.andThen, sends, WProg.exec]
      | panic e => simp [WProg.andThen, sends, WProg.exec]
    | writeAll bs f k ih =>
      simp only [WProg.andThen, sends, WProg.exec, List.length_cons, List.length_append]
      omega
  simp only [Frugal] at *
  omega

theorem frugalImpl_done (o : Outcome SerErr Unit) : FrugalImpl (.done o) := Nat.zero_le _

theorem frugalImpl_ofProg {p : WProg SerErr} (h : Frugal p) : FrugalImpl (.ofProg p) := by
  have hs : sendsImpl (.ofProg p) = sends p := by
    clear h
    induction p with
    | done o => rfl
    | writeAll bs f k ih => simp [WCode.ofProg, sendsImpl, sends, ih]
  rw [FrugalImpl, hs, WCode.exec_ofProg]
  exact h

theorem FrugalImpl.andThen {p : WCode} {k : Option SerErr → WCode} (hp : FrugalImpl p)
    (hk : ∀ r, FrugalImpl (k r)) : FrugalImpl (p.andThen k) := by
  have key : (sendsImpl (p.andThen k)).length + 2 * p.exec.1.length
      ≤ (sendsImpl p).length + 2 * (p.andThen k).exec.1.length := by
    clear hp
    induction p with
    | done o =>
      cases o with
      | ok u =>
        have := hk none
        simp only [FrugalImpl] at this
        simp only [WCode.andThen, sendsImpl, WCode.exec, List.length_nil]
        omega
      | err e =>
        have := hk (some e)
        simp only [FrugalImpl] at this
        simp only [WCode.andThen, sendsImpl, WCode.exec, List.length_nil]
        omega
      | panic e => simp [WCode.andThen, sendsImpl, WCode.exec]
    | writeAll bs f ih =>
      have := ih none
      simp only [WCode.andThen, sendsImpl, WCode.exec, List.length_cons, List.length_append]
      omega
  simp only [FrugalImpl] at *
  omega

theorem FrugalImpl.try_ {p q : WCode} (hp : FrugalImpl p) (hq : FrugalImpl q) :
    FrugalImpl (p.try_ q) :=
  hp.andThen fun
    | none => hq
    | some _ => frugalImpl_done _

namespace Ser

open PrefixVarint

theorem frugal_emit {bs : List UInt8} (h : bs ≠ []) : Frugal (emit bs) :=
  Frugal.cons h (frugal_done _)

theorem slice16_ne (v : UInt16) : slice (encodeU16 v (Vector.replicate 3 0)) ≠ [] := by
  have : slice (encodeU16 v (Vector.replicate 3 0)) = varint 16 v.toNat := vecU16_eq v
  rw [this]; exact Body.varint_ne_nil _ _
theorem slice32_ne (v : UInt32) : slice (encodeU32 v (Vector.replicate 5 0)) ≠ [] := by
  have : slice (encodeU32 v (Vector.replicate 5 0)) = varint 32 v.toNat := vecU32_eq v
  rw [this]; exact Body.varint_ne_nil _ _
theorem slice64_ne (v : UInt64) : slice (encodeU64 v (Vector.replicate 9 0)) ≠ [] := by
  have : slice (encodeU64 v (Vector.replicate 9 0)) = varint 64 v.toNat := vecU64_eq v
  rw [this]; exact Body.varint_ne_nil _ _

theorem frugal_bool (v : Bool) : Frugal (serBool v) := by
  cases v <;> exact frugal_emit (by simp)
theorem frugal_u8 (v : UInt8) : Frugal (serU8 v) := frugal_emit (by simp)
theorem frugal_i8 (v : Int8) : Frugal (serI8 v) := frugal_emit (by simp)
theorem frugal_u16 (v : UInt16) : Frugal (serU16 v) := frugal_emit (slice16_ne _)
theorem frugal_u32 (v : UInt32) : Frugal (serU32 v) := frugal_emit (slice32_ne _)
theorem frugal_u64 (v : UInt64) : Frugal (serU64 v) := frugal_emit (slice64_ne _)
theorem frugal_i16 (v : Int16) : Frugal (serI16 v) := frugal_emit (slice16_ne _)
theorem frugal_i32 (v : Int32) : Frugal (serI32 v) := frugal_emit (slice32_ne _)
theorem frugal_i64 (v : Int64) : Frugal (serI64 v) := frugal_emit (slice64_ne _)
theorem frugal_f32 (v : UInt32) : Frugal (serF32 v) := frugal_emit (by simp)
theorem frugal_f64 (v : UInt64) : Frugal (serF64 v) := frugal_emit (by simp)

theorem frugal_bytes (bs : List UInt8) : Frugal (serBytes bs) := by
  have h := List.length_pos_iff.mpr (slice64_ne (UInt64.ofNat bs.length))
  simp only [Frugal, serBytes, serLen, serU64, emit, WProg.skip, WProg.andThen, sends, WProg.exec,
    List.length_cons, List.length_nil, List.length_append]
  omega

theorem frugal_str (s : String) : Frugal (serStr s) := frugal_bytes (strBytes s)

theorem frugal_hint (h : Option Nat) : Frugal (serHint h) := by
  cases h with
  | none => exact frugal_done _
  | some n => exact frugal_u64 _

theorem frugal_u8s (bs : List UInt8) : Frugal (serU8s bs) := by
  induction bs with
  | nil => exact frugal_done _
  | cons b bs ih => exact (frugal_u8 b).andThen ih

theorem frugal_vecU8 (bs : List UInt8) : Frugal (serVecU8 bs) :=
  (frugal_u64 _).andThen (frugal_u8s bs)

theorem frugal_key (v : Val) : Frugal (serKey v) := by
  unfold serKey
  split
  · exact frugal_str _
  all_goals exact frugal_done _

mutual
theorem frugal_ser : (v : Val) → Frugal (ser v)
  | .bool v => by rw [ser]; exact frugal_bool v
  | .i8 v => by rw [ser]; exact frugal_i8 v
  | .i16 v => by rw [ser]; exact frugal_i16 v
  | .i32 v => by rw [ser]; exact frugal_i32 v
  | .i64 v => by rw [ser]; exact frugal_i64 v
  | .i128 v => by rw [ser]; exact frugal_done _
  | .u8 v => by rw [ser]; exact frugal_u8 v
  | .u16 v => by rw [ser]; exact frugal_u16 v
  | .u32 v => by rw [ser]; exact frugal_u32 v
  | .u64 v => by rw [ser]; exact frugal_u64 v
  | .u128 v => by rw [ser]; exact frugal_done _
  | .f32 v => by rw [ser]; exact frugal_f32 v
  | .f64 v => by rw [ser]; exact frugal_f64 v
  | .char c => by rw [ser]; exact frugal_str _
  | .str s => by rw [ser]; exact frugal_str s
  | .bytes bs => by rw [ser]; exact frugal_bytes bs
  | .none => by rw [ser]; exact frugal_emit (by simp)
  | .some v => by rw [ser]; exact (frugal_emit (by simp)).andThen (frugal_ser v)
  | .unit => by rw [ser]; exact frugal_done _
  | .unitStruct _ => by rw [ser]; exact frugal_done _
  | .unitVariant _ i _ => by rw [ser]; exact frugal_u32 i
  | .newtypeStruct _ v => by rw [ser]; exact frugal_ser v
  | .newtypeVariant _ i _ v => by rw [ser]; exact (frugal_u32 i).andThen (frugal_ser v)
  | .seq h vs => by rw [ser]; exact (frugal_hint h).andThen (frugal_serAll vs)
  | .tuple vs => by rw [ser]; exact frugal_serAll vs
  | .tupleStruct _ vs => by rw [ser]; exact frugal_serAll vs
  | .tupleVariant _ i _ vs => by rw [ser]; exact (frugal_u32 i).andThen (frugal_serAll vs)
  | .map h es => by rw [ser]; exact (frugal_hint h).andThen (frugal_serEntries es)
  | .struct _ fs => by rw [ser]; exact frugal_serFields fs
  | .structVariant _ i _ fs => by rw [ser]; exact (frugal_u32 i).andThen (frugal_serFields fs)
theorem frugal_serAll : (vs : List Val) → Frugal (serAll vs)
  | [] => by rw [serAll]; exact frugal_done _
  | v :: vs => by rw [serAll]; exact (frugal_ser v).andThen (frugal_serAll vs)
theorem frugal_serEntries : (es : List (Val × Val)) → Frugal (serEntries es)
  | [] => by rw [serEntries]; exact frugal_done _
  | (k, v) :: es => by
    rw [serEntries]
    exact (frugal_key k).andThen ((frugal_ser v).andThen (frugal_serEntries es))
theorem frugal_serFields : (fs : List (String × Val)) → Frugal (serFields fs)
  | [] => by rw [serFields]; exact frugal_done _
  | (_, v) :: fs => by rw [serFields]; exact (frugal_ser v).andThen (frugal_serFields fs)
end

end Ser

open Ser

/-! ## `Serialize` implementations -/

theorem frugal_runKey : (p : SerImpl) → FrugalImpl p.runKey
  | .humanReadable k => by rw [SerImpl.runKey]; exact frugal_runKey (k true)
  | .str s => frugalImpl_ofProg (frugal_str s)
  | .collectStr s => frugalImpl_ofProg (frugal_str s)
  | .error _ | .bool _ | .i8 _ | .i16 _ | .i32 _ | .i64 _ | .i128 _ | .u8 _ | .u16 _ | .u32 _
  | .u64 _ | .u128 _ | .f32 _ | .f64 _ | .char _ | .bytes _ | .none | .some _ | .unit
  | .unitStruct _ | .unitVariant _ _ _ | .newtypeStruct _ _ | .newtypeVariant _ _ _ _ | .seq _ _
  | .tuple _ _ | .tupleStruct _ _ _ | .tupleVariant _ _ _ _ _ | .map _ _ | .struct _ _ _
  | .structVariant _ _ _ _ _ => frugalImpl_done _

mutual
theorem frugal_run : (p : SerImpl) → FrugalImpl p.run
  | .error e => frugalImpl_done _
  | .humanReadable k => by rw [SerImpl.run]; exact frugal_run (k false)
  | .bool v => frugalImpl_ofProg (frugal_bool v)
  | .i8 v => frugalImpl_ofProg (frugal_i8 v)
  | .i16 v => frugalImpl_ofProg (frugal_i16 v)
  | .i32 v => frugalImpl_ofProg (frugal_i32 v)
  | .i64 v => frugalImpl_ofProg (frugal_i64 v)
  | .i128 v => frugalImpl_done _
  | .u8 v => frugalImpl_ofProg (frugal_u8 v)
  | .u16 v => frugalImpl_ofProg (frugal_u16 v)
  | .u32 v => frugalImpl_ofProg (frugal_u32 v)
  | .u64 v => frugalImpl_ofProg (frugal_u64 v)
  | .u128 v => frugalImpl_done _
  | .f32 v => frugalImpl_ofProg (frugal_f32 v)
  | .f64 v => frugalImpl_ofProg (frugal_f64 v)
  | .char c => frugalImpl_ofProg (frugal_str _)
  | .str s => frugalImpl_ofProg (frugal_str s)
  | .collectStr s => frugalImpl_ofProg (frugal_str s)
  | .bytes bs => frugalImpl_ofProg (frugal_bytes bs)
  | .none => frugalImpl_ofProg (frugal_emit (by simp))
  | .some v => by
    rw [SerImpl.run]; exact (frugalImpl_ofProg (frugal_emit (by simp))).try_ (frugal_run v)
  | .unit => frugalImpl_done _
  | .unitStruct _ => frugalImpl_done _
  | .unitVariant _ i _ => frugalImpl_ofProg (frugal_u32 i)
  | .newtypeStruct _ v => by rw [SerImpl.run]; exact frugal_run v
  | .newtypeVariant _ i _ v => by
    rw [SerImpl.run]; exact (frugalImpl_ofProg (frugal_u32 i)).try_ (frugal_run v)
  | .seq h k => by
    rw [SerImpl.run]; exact (frugalImpl_ofProg (frugal_hint h)).try_ (frugal_runSeq k)
  | .tuple _ k => by rw [SerImpl.run]; exact frugal_runSeq k
  | .tupleStruct _ _ k => by rw [SerImpl.run]; exact frugal_runSeq k
  | .tupleVariant _ i _ _ k => by
    rw [SerImpl.run]; exact (frugalImpl_ofProg (frugal_u32 i)).try_ (frugal_runSeq k)
  | .map h k => by
    rw [SerImpl.run]; exact (frugalImpl_ofProg (frugal_hint h)).try_ (frugal_runMap k)
  | .struct _ _ k => by rw [SerImpl.run]; exact frugal_runStruct k
  | .structVariant _ i _ _ k => by
    rw [SerImpl.run]; exact (frugalImpl_ofProg (frugal_u32 i)).try_ (frugal_runStruct k)
theorem frugal_runSeq : (p : SeqSer) → FrugalImpl p.run
  | .finish => frugalImpl_done _
  | .error e => frugalImpl_done _
  | .element v k => by rw [SeqSer.run]; exact (frugal_run v).andThen fun r => frugal_runSeq (k r)
theorem frugal_runMap : (p : MapSer) → FrugalImpl p.run
  | .finish => frugalImpl_done _
  | .error e => frugalImpl_done _
  | .key v k => by rw [MapSer.run]; exact (frugal_runKey v).andThen fun r => frugal_runMap (k r)
  | .value v k => by rw [MapSer.run]; exact (frugal_run v).andThen fun r => frugal_runMap (k r)
theorem frugal_runStruct : (p : StructSer) → FrugalImpl p.run
  | .finish => frugalImpl_done _
  | .error e => frugalImpl_done _
  | .field _ v k => by
    rw [StructSer.run]; exact (frugal_run v).andThen fun r => frugal_runStruct (k r)
  | .skipField _ k => by rw [StructSer.run]; exact frugal_runStruct (k Option.none)
end

/-! ## Big numbers and dates -/

theorem frugal_bigDecimal (v : BigDecimal) : Frugal v.ser := by
  refine (frugal_hint _).andThen ?_
  split
  · exact frugal_u8 _
  · exact (frugal_vecU8 _).andThen (frugal_i64 _)

theorem frugal_date (mode : BuildMode) (d : Date) : Frugal (d.ser mode) := by
  rw [Date.ser]
  split
  · exact frugal_done _
  · refine (frugal_i32 _).andThen ?_
    split
    · exact frugal_done _
    · exact frugal_u16 _

theorem frugal_timeDate (mode : BuildMode) (d : Time.Date) : Frugal (Format.serDate mode d) := by
  rw [Format.serDate]
  split
  · exact frugal_done _
  · refine (frugal_i32 _).andThen ?_
    split
    · exact frugal_done _
    · exact frugal_u16 _

theorem frugal_numDecimal (mode : BuildMode) (v : Num.Decimal) :
    Frugal (Format.serBigDecimal mode v) := by
  refine (frugal_hint _).andThen ?_
  split
  · exact frugal_u8 _
  · split
    · exact frugal_done _
    · exact (frugal_vecU8 _).andThen (frugal_i64 _)

/-! ## Bodies -/

namespace Body
mutual
theorem frugal_body (mode : BuildMode) : (b : Body) → Frugal (ser mode b)
  | .unit => by rw [ser]; exact frugal_done _
  | .none => by rw [ser]; exact frugal_emit (by simp)
  | .some b => by rw [ser]; exact (frugal_emit (by simp)).andThen (frugal_body mode b)
  | .boolean b => by rw [ser]; exact frugal_bool b
  | .uint8 v => by rw [ser]; exact frugal_u8 v
  | .uint16 v => by rw [ser]; exact frugal_u16 v
  | .uint32 v => by rw [ser]; exact frugal_u32 v
  | .uint64 v => by rw [ser]; exact frugal_u64 v
  | .int8 v => by rw [ser]; exact frugal_i8 v
  | .int16 v => by rw [ser]; exact frugal_i16 v
  | .int32 v => by rw [ser]; exact frugal_i32 v
  | .int64 v => by rw [ser]; exact frugal_i64 v
  | .float32 v => by rw [ser]; exact frugal_f32 v
  | .float64 v => by rw [ser]; exact frugal_f64 v
  | .bigUInt v => by rw [ser]; exact (frugal_hint _).andThen (frugal_vecU8 _)
  | .bigInt v => by rw [ser]; exact (frugal_hint _).andThen (frugal_vecU8 _)
  | .bigDecimal v => by rw [ser]; exact frugal_bigDecimal v
  | .string s => by rw [ser]; exact frugal_str s
  | .binary bs => by rw [ser]; exact frugal_bytes bs
  | .array bs => by rw [ser]; exact (frugal_hint _).andThen (frugal_bodies mode bs)
  | .tuple bs => by rw [ser]; exact frugal_bodies mode bs
  | .map es => by rw [ser]; exact (frugal_hint _).andThen (frugal_bodyEntries mode es)
  | .enum i b => by rw [ser]; exact (frugal_u32 i).andThen (frugal_body mode b)
  | .date d => by rw [ser]; exact frugal_date mode d
  | .dateTime d => by rw [ser]; exact (frugal_i64 _).andThen (frugal_u32 _)
theorem frugal_bodies (mode : BuildMode) : (bs : List Body) → Frugal (serAll mode bs)
  | [] => by rw [serAll]; exact frugal_done _
  | b :: bs => by rw [serAll]; exact (frugal_body mode b).andThen (frugal_bodies mode bs)
theorem frugal_bodyEntries (mode : BuildMode) : (es : List (String × Body)) →
    Frugal (serEntries mode es)
  | [] => by rw [serEntries]; exact frugal_done _
  | (k, b) :: es => by
    rw [serEntries]
    exact (frugal_str k).andThen ((frugal_body mode b).andThen (frugal_bodyEntries mode es))
end
end Body

/-! ## Derived types -/

namespace Derive

theorem frugal_seq {α : Type} {f : α → WProg SerErr} (h : ∀ v, Frugal (f v)) (vs : List α) :
    Frugal (serSeq f vs) := by
  induction vs with
  | nil => exact frugal_done _
  | cons v vs ih => exact (h v).andThen ih

theorem frugal_map {α : Type} {f : α → WProg SerErr} (h : ∀ v, Frugal (f v))
    (es : List (String × α)) : Frugal (serMap f es) := by
  induction es with
  | nil => exact frugal_done _
  | cons e es ih => exact (frugal_str _).andThen ((h e.2).andThen ih)

mutual
theorem frugal_derived (mode : BuildMode) : (T : RTy) → (v : Carrier T) → Frugal (ser mode T v)
  | .unit, _ => by rw [ser]; exact frugal_done _
  | .option _, none => by rw [ser]; exact frugal_emit (by simp)
  | .option T, some v => by
    rw [ser]; exact (frugal_emit (by simp)).andThen (frugal_derived mode T v)
  | .bool, v => by rw [ser]; exact frugal_bool v
  | .u8, v => by rw [ser]; exact frugal_u8 v
  | .u16, v => by rw [ser]; exact frugal_u16 v
  | .u32, v => by rw [ser]; exact frugal_u32 v
  | .u64, v => by rw [ser]; exact frugal_u64 v
  | .i8, v => by rw [ser]; exact frugal_i8 v
  | .i16, v => by rw [ser]; exact frugal_i16 v
  | .i32, v => by rw [ser]; exact frugal_i32 v
  | .i64, v => by rw [ser]; exact frugal_i64 v
  | .f32, v => by rw [ser]; exact frugal_f32 v
  | .f64, v => by rw [ser]; exact frugal_f64 v
  | .bigUint, v => by rw [ser]; exact (frugal_hint _).andThen (frugal_vecU8 _)
  | .numBigUint, v => by
    rw [ser]
    refine (frugal_hint _).andThen ?_
    split
    · exact frugal_u8 _
    · exact frugal_vecU8 _
  | .bigInt, v => by rw [ser]; exact (frugal_hint _).andThen (frugal_vecU8 _)
  | .numBigInt, v => by
    rw [ser]
    refine (frugal_hint _).andThen ?_
    split
    · exact frugal_u8 _
    · exact frugal_vecU8 _
  | .bigDecimal, v => by rw [ser]; exact frugal_bigDecimal v
  | .numBigDecimal, v => by rw [ser]; exact frugal_numDecimal mode v
  | .str, v => by rw [ser]; exact frugal_str _
  | .string, v => by rw [ser]; exact frugal_str _
  | .bytes, v => by rw [ser]; exact frugal_bytes _
  | .byteBuf, v => by rw [ser]; exact frugal_bytes _
  | .vec T, vs => by
    rw [ser]; exact (frugal_hint _).andThen (frugal_seq (fun v => frugal_derived mode T v) vs)
  | .date, v => by rw [ser]; exact frugal_date mode v
  | .timeDate, v => by rw [ser]; exact frugal_timeDate mode v
  | .dateTime, v => by rw [ser]; exact (frugal_i64 _).andThen (frugal_u32 _)
  | .offsetDateTime, v => by
    rw [ser]; exact (frugal_hint _).andThen ((frugal_i64 _).andThen (frugal_u32 _))
  | .btreeMap T, es => by
    rw [ser]; exact (frugal_hint _).andThen (frugal_map (fun v => frugal_derived mode T v) es)
  | .hashMap T, es => by
    rw [ser]; exact (frugal_hint _).andThen (frugal_map (fun v => frugal_derived mode T v) es)
  | .tuple Ts, vs => by rw [ser]; exact frugal_derivedTuple mode Ts vs
  | .struct _ (.named fs), vs => by rw [ser]; exact frugal_derivedFields mode fs vs
  | .struct _ (.unnamed []), _ => by rw [ser]; exact frugal_done _
  | .struct _ (.unnamed [.mk _ _ T]), vs => by rw [ser]; exact frugal_derived mode T vs.1
  | .struct _ (.unnamed (f :: g :: fs)), vs => by
    rw [ser]; exact frugal_derivedFields mode (f :: g :: fs) vs
  | .struct _ .unit, _ => by rw [ser]; exact frugal_done _
  | .enum name vs, v => by rw [ser]; exact frugal_derivedVariant mode name 0 vs v
  | .union _, v => nomatch v
  | .foreign, v => by rw [ser]; exact frugal_ser v
theorem frugal_derivedTuple (mode : BuildMode) : (Ts : List RTy) → (vs : TupleCarrier Ts) →
    Frugal (serTuple mode Ts vs)
  | [], _ => by rw [serTuple]; exact frugal_done _
  | T :: Ts, (v, vs) => by
    rw [serTuple]; exact (frugal_derived mode T v).andThen (frugal_derivedTuple mode Ts vs)
theorem frugal_derivedFields (mode : BuildMode) : (fs : List RField) → (vs : FieldCarrier fs) →
    Frugal (serFields mode fs vs)
  | [], _ => by rw [serFields]; exact frugal_done _
  | .mk attrs _ T :: fs, (v, vs) => by
    rw [serFields]
    split
    · exact frugal_derivedFields mode fs vs
    · exact (frugal_derived mode T v).andThen (frugal_derivedFields mode fs vs)
theorem frugal_derivedVariant (mode : BuildMode) (name : String) : (i : Nat) →
    (vs : List RVariant) → (v : VariantsCarrier vs) → Frugal (serVariant mode name i vs v)
  | i, .mk attrs vn (.named fs) :: _, .inl v => by
    rw [serVariant]
    split
    · exact frugal_done _
    · exact (frugal_u32 _).andThen (frugal_derivedFields mode fs v)
  | i, .mk attrs vn (.unnamed fs) :: _, .inl v => by
    rw [serVariant]
    split
    · exact frugal_done _
    · exact (frugal_u32 _).andThen (frugal_derivedFields mode fs v)
  | i, .mk attrs vn .unit :: _, .inl v => by
    rw [serVariant]
    split
    · exact frugal_done _
    · exact (frugal_u32 _).andThen (frugal_done _)
  | i, .mk _ _ _ :: vs, .inr v => by
    rw [serVariant]; exact frugal_derivedVariant mode name (i + 1) vs v
end

/-! ## Headers -/

theorem frugal_put {bs : List UInt8} (h : bs ≠ []) : Frugal (put bs) :=
  Frugal.cons h (frugal_done _)

/-- A program that writes something if it does not fail, and is frugal even with one more
call. -/
def Roomy {ε : Type} (p : WProg ε) : Prop := (sends p).length + 1 ≤ 2 * p.exec.1.length

theorem Roomy.frugal {ε : Type} {p : WProg ε} (h : Roomy p) : Frugal p := by
  simp only [Roomy, Frugal] at *; omega

theorem Roomy.andThen {p q : WProg IoErr} (hp : Roomy p) (hm : p.exec.2 = .ok ())
    (hq : Frugal q) : Roomy (p.andThen q) := by
  have hs : ∀ p : WProg IoErr, p.exec.2 = .ok () →
      (sends (p.andThen q)).length = (sends p).length + (sends q).length ∧
      (p.andThen q).exec.1.length = p.exec.1.length + q.exec.1.length := by
    intro p
    induction p with
    | done o => cases o <;> simp [WProg.andThen, sends, WProg.exec]
    | writeAll bs f k ih =>
      intro h
      have := ih h
      simp only [WProg.andThen, sends, WProg.exec, List.length_cons, List.length_append]
      omega
  have := hs p hm
  simp only [Roomy, Frugal] at *
  omega

theorem roomy_put {bs : List UInt8} (h : bs ≠ []) : Roomy (put bs) := by
  have : 1 ≤ bs.length := List.length_pos_iff.mpr h
  simp only [Roomy, put, WProg.skip, sends, WProg.exec, List.length_cons, List.length_nil,
    List.length_append]
  omega

theorem Roomy.after {p : WProg IoErr} (h : Roomy p) : Frugal ((put []).andThen p) := by
  simp only [Frugal, Roomy, put, WProg.skip, WProg.andThen, sends, WProg.exec, List.length_cons,
    List.length_append, List.length_nil] at *
  omega

theorem roomy_cons {bs : List UInt8} {q : WProg IoErr} (h : bs ≠ []) (hq : Frugal q) :
    Roomy ((put bs).andThen q) := (roomy_put h).andThen rfl hq

theorem roomy_skip {p : WProg IoErr} (h : Roomy p) : Roomy (p.andThen .skip) := by
  have hs : ∀ p : WProg IoErr, p.andThen .skip = p := by
    intro p
    induction p with
    | done o => cases o <;> rfl
    | writeAll bs f k ih => rw [WProg.andThen, ih]
  rw [hs]; exact h

end Derive

namespace Header
mutual
theorem roomy_serialize : (h : Header) → Derive.Roomy h.serialize
  | .unit | .boolean | .uint8 | .uint16 | .uint32 | .uint64 | .int8
  | .int16 | .int32 | .int64 | .float32 | .float64 | .bigUInt | .bigInt
  | .bigDecimal | .string | .binary | .date | .dateTime => by
    rw [serialize]; exact Derive.roomy_put (by simp)
  | .optional h => by
    rw [serialize]; exact Derive.roomy_cons (by simp) (roomy_serialize h).frugal
  | .array h => by
    rw [serialize]; exact Derive.roomy_cons (by simp) (roomy_serialize h).frugal
  | .map h => by
    rw [serialize]; exact Derive.roomy_cons (by simp) (roomy_serialize h).frugal
  | .tuple hs => by
    rw [serialize]
    exact Derive.roomy_cons (by simp)
      ((Derive.frugal_put (slice16_ne _)).andThen (frugal_serializeAll hs))
  | .enum hs => by
    rw [serialize]
    exact Derive.roomy_cons (by simp)
      ((Derive.frugal_put (slice16_ne _)).andThen (frugal_serializeAll hs))
theorem frugal_serializeAll : (hs : List Header) → Frugal (serializeAll hs)
  | [] => by rw [serializeAll]; exact frugal_done _
  | h :: hs => by
    rw [serializeAll]; exact (roomy_serialize h).frugal.andThen (frugal_serializeAll hs)
end
end Header

namespace Derive
mutual
theorem roomy_header : (T : RTy) → (p : WProg IoErr) → serializeHeader T = .ok p → Roomy p
  | .unit, _, h | .bool, _, h | .u8, _, h | .u16, _, h | .u32, _, h | .u64, _, h | .i8, _, h
  | .i16, _, h | .i32, _, h | .i64, _, h | .f32, _, h | .f64, _, h | .bigUint, _, h
  | .numBigUint, _, h | .bigInt, _, h | .numBigInt, _, h | .bigDecimal, _, h
  | .numBigDecimal, _, h | .str, _, h | .string, _, h | .bytes, _, h | .byteBuf, _, h
  | .date, _, h | .timeDate, _, h | .dateTime, _, h | .offsetDateTime, _, h => by
    rw [serializeHeader] at h; cases h; exact roomy_put (by simp)
  | .option T, p, h => by
    rw [serializeHeader] at h
    obtain ⟨q, hq, hr⟩ := bind_ok h
    cases hr
    exact roomy_cons (by simp) (roomy_header T q hq).frugal
  | .vec T, p, h => by
    rw [serializeHeader] at h
    obtain ⟨q, hq, hr⟩ := bind_ok h
    cases hr
    exact roomy_cons (by simp) (roomy_header T q hq).frugal
  | .btreeMap T, p, h => by
    rw [serializeHeader] at h
    obtain ⟨q, hq, hr⟩ := bind_ok h
    cases hr
    exact roomy_cons (by simp) (roomy_header T q hq).frugal
  | .hashMap T, p, h => by
    rw [serializeHeader] at h
    obtain ⟨q, hq, hr⟩ := bind_ok h
    cases hr
    exact roomy_cons (by simp) (roomy_header T q hq).frugal
  | .tuple Ts, p, h => by
    rw [serializeHeader] at h
    split at h
    · obtain ⟨q, hq, hr⟩ := bind_ok h
      cases hr
      exact roomy_cons (by simp) ((frugal_put (slice16_ne _)).andThen (frugal_headers Ts q hq))
    · cases h
  | .struct name fields, p, h => by
    rw [serializeHeader] at h
    obtain ⟨⟨n, q⟩, hq, hr⟩ := bind_ok h
    cases hr
    refine roomy_cons (by simp) ?_
    cases fields with
    | named fs => rw [structFields] at hq; exact frugal_struct fs n q hq
    | unnamed fs => rw [structFields] at hq; exact frugal_struct fs n q hq
    | unit => rw [structFields] at hq; cases hq; exact frugal_done _
  | .enum name vs, p, h => by
    rw [serializeHeader] at h
    obtain ⟨⟨n, q⟩, hq, hr⟩ := bind_ok h
    cases hr
    exact roomy_cons (by simp) (frugal_variants vs n q hq)
  | .union _, p, h => by rw [serializeHeader] at h; cases h
  | .foreign, p, h => by rw [serializeHeader] at h; cases h
theorem frugal_headers : (Ts : List RTy) → (p : WProg IoErr) → serializeHeaders Ts = .ok p →
    Frugal p
  | [], _, h => by rw [serializeHeaders] at h; cases h; exact frugal_done _
  | T :: Ts, p, h => by
    rw [serializeHeaders] at h
    obtain ⟨q, hq, hr⟩ := bind_ok h
    obtain ⟨r, hr', hs⟩ := bind_ok hr
    cases hs
    exact (roomy_header T q hq).frugal.andThen (frugal_headers Ts r hr')
theorem frugal_struct : (fs : List RField) → (n : Nat) → (p : WProg IoErr) →
    structTypes fs = .ok (n, p) → Frugal p
  | [], _, _, h => by rw [structTypes] at h; cases h; exact frugal_done _
  | .mk attrs name T :: fs, n, p, h => by
    rw [structTypes] at h
    split at h
    · cases h
    · split at h
      · exact frugal_struct fs n p h
      · obtain ⟨q, hq, hr⟩ := bind_ok h
        obtain ⟨⟨m, r⟩, hr', hs⟩ := bind_ok hr
        cases hs
        exact (roomy_header T q hq).frugal.andThen (frugal_struct fs m r hr')
theorem frugal_variants : (vs : List RVariant) → (n : Nat) → (p : WProg IoErr) →
    enumVariants vs = .ok (n, p) → Frugal p
  | [], _, _, h => by rw [enumVariants] at h; cases h; exact frugal_done _
  | .mk attrs name fields :: vs, n, p, h => by
    rw [enumVariants] at h
    split at h
    · cases h
    · split at h
      · exact frugal_variants vs n p h
      · obtain ⟨q, hq, hr⟩ := bind_ok h
        obtain ⟨⟨m, r⟩, hr', hs⟩ := bind_ok hr
        cases hs
        refine Frugal.andThen ?_ (frugal_variants vs m r hr')
        cases fields with
        | named fs => rw [variantFields] at hq; exact frugal_payload fs q hq
        | unnamed fs => rw [variantFields] at hq; exact frugal_payload fs q hq
        | unit => rw [variantFields] at hq; cases hq; exact (roomy_put (by simp)).after
theorem frugal_payload : (fs : List RField) → (p : WProg IoErr) → variantTypes fs = .ok p →
    Frugal p
  | [], _, h => by rw [variantTypes] at h; cases h; exact (roomy_put (by simp)).after
  | [.mk _ _ T], p, h => by
    rw [variantTypes] at h
    obtain ⟨q, hq, hr⟩ := bind_ok h
    cases hr
    rw [fieldTypes] at hq
    obtain ⟨r, hr, hs⟩ := bind_ok hq
    rw [fieldTypes] at hs
    cases hs
    exact (roomy_skip (roomy_header T r hr)).after
  | f :: g :: fs, p, h => by
    rw [variantTypes] at h
    obtain ⟨q, hq, hr⟩ := bind_ok h
    cases hr
    exact (frugal_put (by simp)).andThen (frugal_fieldTypes (f :: g :: fs) q hq)
theorem frugal_fieldTypes : (fs : List RField) → (p : WProg IoErr) → fieldTypes fs = .ok p →
    Frugal p
  | [], _, h => by rw [fieldTypes] at h; cases h; exact frugal_done _
  | .mk _ _ T :: fs, p, h => by
    rw [fieldTypes] at h
    obtain ⟨q, hq, hr⟩ := bind_ok h
    obtain ⟨r, hr', hs⟩ := bind_ok hr
    cases hs
    exact (roomy_header T q hq).frugal.andThen (frugal_fieldTypes fs r hr')
end
end Derive

end Dlhn
