import Verif.Proof.Ser
import Verif.Proof.SerGen
import Verif.Proof.Writer
import Verif.Spec.SerImpl
/-! # Lemmas about `Serialize` implementations -/
namespace Dlhn
open Spec

namespace WCode

@[simp] theorem exec_ofProg (p : WProg SerErr) : (ofProg p).exec = p.exec := by
  induction p with
  | done o => rfl
  | writeAll bs f p ih => simp only [ofProg, exec, WProg.exec, ih]

theorem runScript_ofProg (p : WProg SerErr) (s : WScript) :
    (ofProg p).runScript s = p.runScript s := by
  induction p generalizing s with
  | done o => rfl
  | writeAll bs f p ih =>
    simp only [ofProg, runScript, WProg.runScript]
    rcases WScript.writeAll bs s with ⟨out, r, s'⟩
    cases r with
    | none => simp only [ih]
    | some e => simp [runScript]

theorem exec_andThen (p : WCode) (k : Option SerErr → WCode) :
    (p.andThen k).exec = match p.exec with
      | (o, .ok ()) => (o ++ (k none).exec.1, (k none).exec.2)
      | (o, .err e) => (o ++ (k (some e)).exec.1, (k (some e)).exec.2)
      | (o, .panic q) => (o, .panic q) := by
  induction p with
  | done o => cases o <;> simp [andThen, exec]
  | writeAll bs f ih =>
    simp only [andThen, exec, ih]
    rcases (f none).exec with ⟨o, r⟩
    cases r <;> simp

/-- In terms of bytes and error. -/
theorem exec_andThen_result {p : WCode} {k : Option SerErr → WCode} {o : List UInt8}
    {r : Option SerErr} (h : p.exec = (o, toResult r)) :
    (p.andThen k).exec = (o ++ (k r).exec.1, (k r).exec.2) := by
  rw [exec_andThen, h]
  cases r <;> rfl

theorem exec_try {p q : WCode} {o : List UInt8} (h : p.exec = (o, .ok ())) :
    (p.try_ q).exec = (o ++ q.exec.1, q.exec.2) := by
  rw [try_, exec_andThen, h]

/-- On a benign writer the code writes and returns the same as on a `Vec`. -/
theorem runScript_benign (p : WCode) (s : WScript) (h : s.Benign) : p.runScript s = p.exec := by
  induction p generalizing s with
  | done o => rfl
  | writeAll bs k ih =>
    obtain ⟨s', h1, h2⟩ := WScript.writeAll_benign bs s h
    simp only [runScript, h1, exec, ih none s' h2]

/-- On any writer: as on a `Vec`, or a write failed, until when a strict prefix had
been written. -/
theorem runScript_first (p : WCode) (s : WScript) :
    p.runScript s = p.exec ∨
    ∃ pre, pre <+: p.exec.1 ∧ pre ≠ p.exec.1 ∧ pre <+: (p.runScript s).1 := by
  induction p generalizing s with
  | done o => exact .inl rfl
  | writeAll bs k ih =>
    have hw := WScript.writeAll_spec bs s
    rcases hr : WScript.writeAll bs s with ⟨out, r, s'⟩
    rw [hr] at hw
    simp only [runScript, hr, exec]
    cases r with
    | none =>
      simp only at hw ⊢
      subst hw
      rcases ih none s' with h | ⟨pre, h1, h2, h3⟩
      · left; rw [h]
      · right
        exact ⟨_ ++ pre, (List.prefix_append_right_inj _).mpr h1,
          fun h => h2 (List.append_cancel_left h), (List.prefix_append_right_inj _).mpr h3⟩
    | some e =>
      right
      simp only at hw ⊢
      refine ⟨out, hw.1.trans (List.prefix_append _ _), fun h => hw.2 ?_, List.prefix_append _ _⟩
      have h1 := hw.1.length_le
      have h2 := congrArg List.length h
      simp only [List.length_append] at h2
      exact hw.1.eq_of_length (by omega)

/-- The code never panics, whatever its writes return. -/
def Calm : WCode → Prop
  | .done o => ∀ q, o ≠ .panic q
  | .writeAll _ k => ∀ r, (k r).Calm

theorem Calm.andThen {p : WCode} (hp : p.Calm) {k : Option SerErr → WCode} (hk : ∀ r, (k r).Calm) :
    (p.andThen k).Calm := by
  induction p with
  | done o =>
    cases o with
    | ok u => exact hk _
    | err e => exact hk _
    | panic q => exact absurd rfl (hp q)
  | writeAll bs f ih => exact fun r => ih r (hp r)

theorem Calm.try_ {p q : WCode} (hp : p.Calm) (hq : q.Calm) : (p.try_ q).Calm :=
  hp.andThen fun r => by
    cases r with
    | none => exact hq
    | some e => intro q; simp

theorem Calm.runScript {p : WCode} (hp : p.Calm) (s : WScript) (q : PanicKind) :
    (p.runScript s).2 ≠ .panic q := by
  induction p generalizing s with
  | done o => exact hp q
  | writeAll bs k ih =>
    simp only [WCode.runScript]
    rcases WScript.writeAll bs s with ⟨out, r, s'⟩
    exact ih r (hp r) s'

theorem ofProg_andThen (p q : WProg SerErr) :
    (ofProg p).try_ (ofProg q) = ofProg (p.andThen q) := by
  induction p with
  | done o => cases o <;> rfl
  | writeAll bs f p ih =>
    simp only [try_, WProg.andThen, ofProg, andThen]
    congr 1
    funext r
    cases r with
    | none => exact ih
    | some e => rfl

theorem calm_ofProg {p : WProg SerErr} (h : Ser.Good p) : (ofProg p).Calm := by
  induction p with
  | done o => intro q hq; subst hq; exact h
  | writeAll bs f p ih =>
    intro r
    cases r with
    | none => exact ih h.2
    | some e => intro q; simp

end WCode

/-! ## On a `Vec` -/

theorem exec_serLen_mod (n : Nat) : (Ser.serLen n).exec = (lengthWire n, .ok ()) := by
  rw [Ser.serLen, Ser.exec_serU64, UInt64.toNat_ofNat']; rfl

theorem exec_serBytes_mod (bs : List UInt8) : (Ser.serBytes bs).exec = (counted bs, .ok ()) := by
  rw [Ser.serBytes, WProg.exec_andThen_ok (exec_serLen_mod _), Ser.exec_emit]; rfl

theorem exec_serStr_mod (s : String) : (Ser.serStr s).exec = (counted (utf8 s), .ok ()) :=
  exec_serBytes_mod (utf8 s)

open WCode in
theorem exec_runKey : (p : SerImpl) → p.runKey.exec = match keyText p with
    | some s => (counted (utf8 s), .ok ())
    | none => ([], .err (keyError p))
  | .humanReadable k => by rw [SerImpl.runKey, exec_runKey (k true), keyText, keyError]
  | .str s => by rw [SerImpl.runKey, exec_ofProg, exec_serStr_mod]; rfl
  | .collectStr s => by rw [SerImpl.runKey, exec_ofProg, exec_serStr_mod]; rfl
  | .error _ | .bool _ | .i8 _ | .i16 _ | .i32 _ | .i64 _ | .i128 _ | .u8 _ | .u16 _ | .u32 _
  | .u64 _ | .u128 _ | .f32 _ | .f64 _ | .char _ | .bytes _ | .none | .some _ | .unit
  | .unitStruct _ | .unitVariant _ _ _ | .newtypeStruct _ _ | .newtypeVariant _ _ _ _ | .seq _ _
  | .tuple _ _ | .tupleStruct _ _ _ | .tupleVariant _ _ _ _ _ | .map _ _ | .struct _ _ _
  | .structVariant _ _ _ _ _ => rfl

theorem exec_lengthThen {p : WCode} {o : List UInt8} {r : Option SerErr}
    (h : p.exec = (o, toResult r)) {q : WProg SerErr} {l : List UInt8} (hq : q.exec = (l, .ok ())) :
    ((WCode.ofProg q).try_ p).exec = (l ++ o, toResult r) := by
  rw [WCode.exec_try (o := l) (by rw [WCode.exec_ofProg, hq]), h]

open WCode in
mutual
theorem exec_run : (p : SerImpl) → p.run.exec = ((written p).1, toResult (written p).2)
  | .error e => rfl
  | .humanReadable k => by rw [SerImpl.run, written]; exact exec_run (k false)
  | .bool v => by cases v <;> rfl
  | .i8 v => by rw [SerImpl.run, exec_ofProg, Ser.serI8, Ser.exec_emit]; rfl
  | .i16 v => by rw [SerImpl.run, exec_ofProg, Ser.exec_serI16]; rfl
  | .i32 v => by rw [SerImpl.run, exec_ofProg, Ser.exec_serI32]; rfl
  | .i64 v => by rw [SerImpl.run, exec_ofProg, Ser.exec_serI64]; rfl
  | .i128 v => rfl
  | .u8 v => by rw [SerImpl.run, exec_ofProg, Ser.serU8, Ser.exec_emit]; rfl
  | .u16 v => by rw [SerImpl.run, exec_ofProg, Ser.exec_serU16]; rfl
  | .u32 v => by rw [SerImpl.run, exec_ofProg, Ser.exec_serU32]; rfl
  | .u64 v => by rw [SerImpl.run, exec_ofProg, Ser.exec_serU64]; rfl
  | .u128 v => rfl
  | .f32 v => by rw [SerImpl.run, exec_ofProg, Ser.exec_serF32]; rfl
  | .f64 v => by rw [SerImpl.run, exec_ofProg, Ser.exec_serF64]; rfl
  | .char c => by rw [SerImpl.run, exec_ofProg, Ser.serChar, exec_serStr_mod]; rfl
  | .str s => by rw [SerImpl.run, exec_ofProg, exec_serStr_mod]; rfl
  | .collectStr s => by rw [SerImpl.run, exec_ofProg, exec_serStr_mod]; rfl
  | .bytes bs => by rw [SerImpl.run, exec_ofProg, exec_serBytes_mod]; rfl
  | .none => rfl
  | .some v => by rw [SerImpl.run, exec_lengthThen (exec_run v) (Ser.exec_emit _)]; rfl
  | .unit => rfl
  | .unitStruct _ => rfl
  | .unitVariant _ i _ => by rw [SerImpl.run, exec_ofProg, Ser.exec_serU32]; rfl
  | .newtypeStruct _ v => by rw [SerImpl.run, written]; exact exec_run v
  | .newtypeVariant _ i _ v => by
    rw [SerImpl.run, exec_lengthThen (exec_run v) (Ser.exec_serU32 _)]; rfl
  | .seq Option.none k => by
    rw [SerImpl.run, written, exec_lengthThen (exec_runSeq k) (l := []) rfl]; rfl
  | .seq (Option.some n) k => by
    rw [SerImpl.run, Ser.serHint, written, exec_lengthThen (exec_runSeq k) (exec_serLen_mod n)]
  | .tuple _ k => by rw [SerImpl.run, written]; exact exec_runSeq k
  | .tupleStruct _ _ k => by rw [SerImpl.run, written]; exact exec_runSeq k
  | .tupleVariant _ i _ _ k => by
    rw [SerImpl.run, written, exec_lengthThen (exec_runSeq k) (Ser.exec_serU32 _)]
  | .map Option.none k => by
    rw [SerImpl.run, written, exec_lengthThen (exec_runMap k) (l := []) rfl]; rfl
  | .map (Option.some n) k => by
    rw [SerImpl.run, Ser.serHint, written, exec_lengthThen (exec_runMap k) (exec_serLen_mod n)]
  | .struct _ _ k => by rw [SerImpl.run, written]; exact exec_runStruct k
  | .structVariant _ i _ _ k => by
    rw [SerImpl.run, written, exec_lengthThen (exec_runStruct k) (Ser.exec_serU32 _)]
theorem exec_runSeq : (p : SeqSer) → p.run.exec = ((writtenSeq p).1, toResult (writtenSeq p).2)
  | .finish => rfl
  | .error e => rfl
  | .element v k => by
    rw [SeqSer.run, exec_andThen_result (exec_run v), exec_runSeq (k (written v).2)]; rfl
theorem exec_runMap : (p : MapSer) → p.run.exec = ((writtenMap p).1, toResult (writtenMap p).2)
  | .finish => rfl
  | .error e => rfl
  | .key v k => by
    have h := exec_runKey v
    rw [MapSer.run, writtenMap]
    cases hk : keyText v with
    | none =>
      rw [hk] at h
      rw [exec_andThen_result (r := some (keyError v)) h, exec_runMap (k (some (keyError v)))]
      rfl
    | some s =>
      rw [hk] at h
      rw [exec_andThen_result (r := Option.none) h, exec_runMap (k Option.none)]
      rfl
  | .value v k => by
    rw [MapSer.run, exec_andThen_result (exec_run v), exec_runMap (k (written v).2)]; rfl
theorem exec_runStruct : (p : StructSer) →
    p.run.exec = ((writtenStruct p).1, toResult (writtenStruct p).2)
  | .finish => rfl
  | .error e => rfl
  | .field _ v k => by
    rw [StructSer.run, exec_andThen_result (exec_run v), exec_runStruct (k (written v).2)]; rfl
  | .skipField _ k => by rw [StructSer.run, writtenStruct]; exact exec_runStruct (k Option.none)
end

/-! ## No panics -/

open WCode Ser in
theorem calm_runKey : (p : SerImpl) → p.runKey.Calm
  | .humanReadable k => by rw [SerImpl.runKey]; exact calm_runKey (k true)
  | .str s => calm_ofProg (good_serStr s)
  | .collectStr s => calm_ofProg (good_serStr s)
  | .error _ | .bool _ | .i8 _ | .i16 _ | .i32 _ | .i64 _ | .i128 _ | .u8 _ | .u16 _ | .u32 _
  | .u64 _ | .u128 _ | .f32 _ | .f64 _ | .char _ | .bytes _ | .none | .some _ | .unit
  | .unitStruct _ | .unitVariant _ _ _ | .newtypeStruct _ _ | .newtypeVariant _ _ _ _ | .seq _ _
  | .tuple _ _ | .tupleStruct _ _ _ | .tupleVariant _ _ _ _ _ | .map _ _ | .struct _ _ _
  | .structVariant _ _ _ _ _ => by intro q; simp

theorem calm_ok : (WCode.done (.ok ())).Calm := by intro q; simp
theorem calm_err (e : SerErr) : (WCode.done (.err e)).Calm := by intro q; simp

open WCode Ser in
mutual
theorem calm_run : (p : SerImpl) → p.run.Calm
  | .error e => calm_err e
  | .humanReadable k => by rw [SerImpl.run]; exact calm_run (k false)
  | .bool v => by cases v <;> exact calm_ofProg (good_emit _)
  | .i8 v => calm_ofProg (good_emit _)
  | .i16 v => calm_ofProg (good_emit _)
  | .i32 v => calm_ofProg (good_emit _)
  | .i64 v => calm_ofProg (good_emit _)
  | .i128 v => calm_err _
  | .u8 v => calm_ofProg (good_emit _)
  | .u16 v => calm_ofProg (good_emit _)
  | .u32 v => calm_ofProg (good_emit _)
  | .u64 v => calm_ofProg (good_emit _)
  | .u128 v => calm_err _
  | .f32 v => calm_ofProg (good_emit _)
  | .f64 v => calm_ofProg (good_emit _)
  | .char c => calm_ofProg (good_serStr _)
  | .str s => calm_ofProg (good_serStr _)
  | .collectStr s => calm_ofProg (good_serStr _)
  | .bytes bs => calm_ofProg ((good_emit _).andThen (good_emit _))
  | .none => calm_ofProg (good_emit _)
  | .some v => by rw [SerImpl.run]; exact (calm_ofProg (good_emit _)).try_ (calm_run v)
  | .unit => calm_ok
  | .unitStruct _ => calm_ok
  | .unitVariant _ i _ => calm_ofProg (good_emit _)
  | .newtypeStruct _ v => by rw [SerImpl.run]; exact calm_run v
  | .newtypeVariant _ i _ v => by
    rw [SerImpl.run]; exact (calm_ofProg (good_emit _)).try_ (calm_run v)
  | .seq h k => by rw [SerImpl.run]; exact (calm_ofProg (good_serHint h)).try_ (calm_runSeq k)
  | .tuple _ k => by rw [SerImpl.run]; exact calm_runSeq k
  | .tupleStruct _ _ k => by rw [SerImpl.run]; exact calm_runSeq k
  | .tupleVariant _ i _ _ k => by
    rw [SerImpl.run]; exact (calm_ofProg (good_emit _)).try_ (calm_runSeq k)
  | .map h k => by rw [SerImpl.run]; exact (calm_ofProg (good_serHint h)).try_ (calm_runMap k)
  | .struct _ _ k => by rw [SerImpl.run]; exact calm_runStruct k
  | .structVariant _ i _ _ k => by
    rw [SerImpl.run]; exact (calm_ofProg (good_emit _)).try_ (calm_runStruct k)
theorem calm_runSeq : (p : SeqSer) → p.run.Calm
  | .finish => calm_ok
  | .error e => calm_err e
  | .element v k => by rw [SeqSer.run]; exact (calm_run v).andThen fun r => calm_runSeq (k r)
theorem calm_runMap : (p : MapSer) → p.run.Calm
  | .finish => calm_ok
  | .error e => calm_err e
  | .key v k => by rw [MapSer.run]; exact (calm_runKey v).andThen fun r => calm_runMap (k r)
  | .value v k => by rw [MapSer.run]; exact (calm_run v).andThen fun r => calm_runMap (k r)
theorem calm_runStruct : (p : StructSer) → p.run.Calm
  | .finish => calm_ok
  | .error e => calm_err e
  | .field _ v k => by rw [StructSer.run]; exact (calm_run v).andThen fun r => calm_runStruct (k r)
  | .skipField _ k => by rw [StructSer.run]; exact calm_runStruct (k Option.none)
end

/-! ## Implementations that pass errors on -/

/-- The code is one that stops at the first failed write and returns `Write`. -/
def Stops (p : WCode) : Prop := ∃ q : WProg SerErr, Ser.Good q ∧ p = WCode.ofProg q

theorem Stops.of {q : WProg SerErr} (h : Ser.Good q) : Stops (WCode.ofProg q) := ⟨q, h, rfl⟩
theorem stops_ok : Stops (.done (.ok ())) := ⟨.skip, trivial, rfl⟩
theorem stops_err (e : SerErr) : Stops (.done (.err e)) := ⟨.done (.err e), trivial, rfl⟩

theorem Stops.try_ {p q : WCode} (hp : Stops p) (hq : Stops q) : Stops (p.try_ q) := by
  obtain ⟨a, ha, rfl⟩ := hp
  obtain ⟨b, hb, rfl⟩ := hq
  exact ⟨a.andThen b, ha.andThen hb, WCode.ofProg_andThen a b⟩

theorem Stops.andThen {p : WCode} (hp : Stops p) {k : Option SerErr → WCode}
    (he : ∀ e, k (some e) = .done (.err e)) (hk : Stops (k none)) : Stops (p.andThen k) := by
  have : p.andThen k = p.try_ (k none) := by
    rw [WCode.try_]
    congr 1
    funext r
    cases r with
    | none => rfl
    | some e => exact he e
  rw [this]
  exact hp.try_ hk

open Ser in
theorem stops_runKey : (p : SerImpl) → Stops p.runKey
  | .humanReadable k => by rw [SerImpl.runKey]; exact stops_runKey (k true)
  | .str s => .of (good_serStr s)
  | .collectStr s => .of (good_serStr s)
  | .error _ | .bool _ | .i8 _ | .i16 _ | .i32 _ | .i64 _ | .i128 _ | .u8 _ | .u16 _ | .u32 _
  | .u64 _ | .u128 _ | .f32 _ | .f64 _ | .char _ | .bytes _ | .none | .some _ | .unit
  | .unitStruct _ | .unitVariant _ _ _ | .newtypeStruct _ _ | .newtypeVariant _ _ _ _ | .seq _ _
  | .tuple _ _ | .tupleStruct _ _ _ | .tupleVariant _ _ _ _ _ | .map _ _ | .struct _ _ _
  | .structVariant _ _ _ _ _ => stops_err _

open Ser in
mutual
theorem stops_run : (p : SerImpl) → PassesOn p → Stops p.run
  | .error e, _ => stops_err e
  | .humanReadable k, h => by rw [SerImpl.run]; rw [PassesOn] at h; exact stops_run (k false) h
  | .bool v, _ => by cases v <;> exact .of (good_emit _)
  | .i8 v, _ => .of (good_emit _)
  | .i16 v, _ => .of (good_emit _)
  | .i32 v, _ => .of (good_emit _)
  | .i64 v, _ => .of (good_emit _)
  | .i128 v, _ => stops_err _
  | .u8 v, _ => .of (good_emit _)
  | .u16 v, _ => .of (good_emit _)
  | .u32 v, _ => .of (good_emit _)
  | .u64 v, _ => .of (good_emit _)
  | .u128 v, _ => stops_err _
  | .f32 v, _ => .of (good_emit _)
  | .f64 v, _ => .of (good_emit _)
  | .char c, _ => .of (good_serStr _)
  | .str s, _ => .of (good_serStr _)
  | .collectStr s, _ => .of (good_serStr _)
  | .bytes bs, _ => .of ((good_emit _).andThen (good_emit _))
  | .none, _ => .of (good_emit _)
  | .some v, h => by
    rw [SerImpl.run]; rw [PassesOn] at h; exact (Stops.of (good_emit _)).try_ (stops_run v h)
  | .unit, _ => stops_ok
  | .unitStruct _, _ => stops_ok
  | .unitVariant _ i _, _ => .of (good_emit _)
  | .newtypeStruct _ v, h => by rw [SerImpl.run]; rw [PassesOn] at h; exact stops_run v h
  | .newtypeVariant _ i _ v, h => by
    rw [SerImpl.run]; rw [PassesOn] at h; exact (Stops.of (good_emit _)).try_ (stops_run v h)
  | .seq l k, h => by
    rw [SerImpl.run]; rw [PassesOn] at h; exact (Stops.of (good_serHint l)).try_ (stops_runSeq k h)
  | .tuple _ k, h => by rw [SerImpl.run]; rw [PassesOn] at h; exact stops_runSeq k h
  | .tupleStruct _ _ k, h => by rw [SerImpl.run]; rw [PassesOn] at h; exact stops_runSeq k h
  | .tupleVariant _ i _ _ k, h => by
    rw [SerImpl.run]; rw [PassesOn] at h; exact (Stops.of (good_emit _)).try_ (stops_runSeq k h)
  | .map l k, h => by
    rw [SerImpl.run]; rw [PassesOn] at h; exact (Stops.of (good_serHint l)).try_ (stops_runMap k h)
  | .struct _ _ k, h => by rw [SerImpl.run]; rw [PassesOn] at h; exact stops_runStruct k h
  | .structVariant _ i _ _ k, h => by
    rw [SerImpl.run]; rw [PassesOn] at h; exact (Stops.of (good_emit _)).try_ (stops_runStruct k h)
theorem stops_runSeq : (p : SeqSer) → PassesOnSeq p → Stops p.run
  | .finish, _ => stops_ok
  | .error e, _ => stops_err e
  | .element v k, h => by
    rw [PassesOnSeq] at h
    rw [SeqSer.run]
    exact (stops_run v h.1).andThen (fun e => by rw [h.2.1 e]; rfl) (stops_runSeq (k .none) h.2.2)
theorem stops_runMap : (p : MapSer) → PassesOnMap p → Stops p.run
  | .finish, _ => stops_ok
  | .error e, _ => stops_err e
  | .key v k, h => by
    rw [PassesOnMap] at h
    rw [MapSer.run]
    exact (stops_runKey v).andThen (fun e => by rw [h.1 e]; rfl) (stops_runMap (k .none) h.2)
  | .value v k, h => by
    rw [PassesOnMap] at h
    rw [MapSer.run]
    exact (stops_run v h.1).andThen (fun e => by rw [h.2.1 e]; rfl) (stops_runMap (k .none) h.2.2)
theorem stops_runStruct : (p : StructSer) → PassesOnStruct p → Stops p.run
  | .finish, _ => stops_ok
  | .error e, _ => stops_err e
  | .field _ v k, h => by
    rw [PassesOnStruct] at h
    rw [StructSer.run]
    exact (stops_run v h.1).andThen (fun e => by rw [h.2.1 e]; rfl)
      (stops_runStruct (k .none) h.2.2)
  | .skipField _ k, h => by
    rw [PassesOnStruct] at h
    rw [StructSer.run]
    exact stops_runStruct (k .none) h
end

/-! ## The implementations of serde -/

theorem runKey_implOfVal (v : Val) : (implOfVal v).runKey = WCode.ofProg (Ser.serKey v) := by
  cases v <;> rfl

theorem andThen_try (p : WCode) (k : Option SerErr → WCode)
    (he : ∀ e, k (some e) = .done (.err e)) : p.andThen k = p.try_ (k none) := by
  rw [WCode.try_]
  congr 1
  funext r
  cases r with
  | none => rfl
  | some e => exact he e

open Ser WCode in
mutual
theorem run_implOfVal : (v : Val) → (implOfVal v).run = ofProg (ser v)
  | .bool v => rfl
  | .i8 v => rfl
  | .i16 v => rfl
  | .i32 v => rfl
  | .i64 v => rfl
  | .i128 v => rfl
  | .u8 v => rfl
  | .u16 v => rfl
  | .u32 v => rfl
  | .u64 v => rfl
  | .u128 v => rfl
  | .f32 v => rfl
  | .f64 v => rfl
  | .char c => rfl
  | .str s => rfl
  | .bytes bs => rfl
  | .none => rfl
  | .some v => by rw [implOfVal, SerImpl.run, run_implOfVal v, ofProg_andThen, ser]
  | .unit => rfl
  | .unitStruct _ => rfl
  | .unitVariant _ _ _ => rfl
  | .newtypeStruct _ v => by rw [implOfVal, SerImpl.run, run_implOfVal v, ser]
  | .newtypeVariant _ i _ v => by
    rw [implOfVal, SerImpl.run, run_implOfVal v, ofProg_andThen, ser]
  | .seq h vs => by rw [implOfVal, SerImpl.run, run_seqOfVals vs, ofProg_andThen, ser]
  | .tuple vs => by rw [implOfVal, SerImpl.run, run_seqOfVals vs, ser]
  | .tupleStruct _ vs => by rw [implOfVal, SerImpl.run, run_seqOfVals vs, ser]
  | .tupleVariant _ i _ vs => by
    rw [implOfVal, SerImpl.run, run_seqOfVals vs, ofProg_andThen, ser]
  | .map h es => by rw [implOfVal, SerImpl.run, run_mapOfVals es, ofProg_andThen, ser]
  | .struct _ fs => by rw [implOfVal, SerImpl.run, run_structOfVals fs, ser]
  | .structVariant _ i _ fs => by
    rw [implOfVal, SerImpl.run, run_structOfVals fs, ofProg_andThen, ser]
theorem run_seqOfVals : (vs : List Val) → (seqOfVals vs).run = ofProg (serAll vs)
  | [] => rfl
  | v :: vs => by
    rw [seqOfVals, SeqSer.run, andThen_try _ _ (fun e => rfl), run_implOfVal v]
    dsimp only
    rw [run_seqOfVals vs, ofProg_andThen, serAll]
theorem run_mapOfVals : (es : List (Val × Val)) → (mapOfVals es).run = ofProg (serEntries es)
  | [] => rfl
  | (k, v) :: es => by
    rw [mapOfVals, MapSer.run, andThen_try _ _ (fun e => rfl), runKey_implOfVal k]
    dsimp only
    rw [MapSer.run, andThen_try _ _ (fun e => rfl), run_implOfVal v]
    dsimp only
    rw [run_mapOfVals es, ofProg_andThen, ofProg_andThen, serEntries]
theorem run_structOfVals : (fs : List (String × Val)) →
    (structOfVals fs).run = ofProg (serFields fs)
  | [] => rfl
  | (n, v) :: fs => by
    rw [structOfVals, StructSer.run, andThen_try _ _ (fun e => rfl), run_implOfVal v]
    dsimp only
    rw [run_structOfVals fs, ofProg_andThen, serFields]
end

mutual
theorem passesOn_implOfVal : (v : Val) → PassesOn (implOfVal v)
  | .bool _ | .i8 _ | .i16 _ | .i32 _ | .i64 _ | .i128 _ | .u8 _ | .u16 _ | .u32 _ | .u64 _
  | .u128 _ | .f32 _ | .f64 _ | .char _ | .str _ | .bytes _ | .none | .unit | .unitStruct _
  | .unitVariant _ _ _ => by simp only [implOfVal, PassesOn]
  | .some v | .newtypeStruct _ v | .newtypeVariant _ _ _ v => by
    rw [implOfVal, PassesOn]; exact passesOn_implOfVal v
  | .seq _ vs | .tuple vs | .tupleStruct _ vs | .tupleVariant _ _ _ vs => by
    rw [implOfVal, PassesOn]; exact passesOn_seqOfVals vs
  | .map _ es => by rw [implOfVal, PassesOn]; exact passesOn_mapOfVals es
  | .struct _ fs | .structVariant _ _ _ fs => by
    rw [implOfVal, PassesOn]; exact passesOn_structOfVals fs
theorem passesOn_seqOfVals : (vs : List Val) → PassesOnSeq (seqOfVals vs)
  | [] => by simp only [seqOfVals, PassesOnSeq]
  | v :: vs => by
    rw [seqOfVals, PassesOnSeq]
    exact ⟨passesOn_implOfVal v, fun _ => rfl, passesOn_seqOfVals vs⟩
theorem passesOn_mapOfVals : (es : List (Val × Val)) → PassesOnMap (mapOfVals es)
  | [] => by simp only [mapOfVals, PassesOnMap]
  | (k, v) :: es => by
    rw [mapOfVals, PassesOnMap]
    refine ⟨fun _ => rfl, ?_⟩
    dsimp only
    rw [PassesOnMap]
    exact ⟨passesOn_implOfVal v, fun _ => rfl, passesOn_mapOfVals es⟩
theorem passesOn_structOfVals : (fs : List (String × Val)) → PassesOnStruct (structOfVals fs)
  | [] => by simp only [structOfVals, PassesOnStruct]
  | (_, v) :: fs => by
    rw [structOfVals, PassesOnStruct]
    exact ⟨passesOn_implOfVal v, fun _ => rfl, passesOn_structOfVals fs⟩
end

end Dlhn
