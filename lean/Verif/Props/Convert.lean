import Verif.Proof.Convert
import Verif.Proof.After
import Verif.Proof.Evolve
import Verif.Props.Derive
import Verif.Props.StdTypes
/-!
# C131: types serialized through another type

`T` is a type of values `α` with `#[serde(into = "U", try_from = "U")]` (or `from`), `U` one of
values `β`, with any `Serialize` and `Deserialize`. `Only` and `converted` are in
Spec/Convert.lean, `Writes`, `Reads` and `ThereAndBack` in Spec/StdTypes.lean. What is concluded
for `T` has the form of what is assumed for `U`, so `U` may be such a type itself, or contain one.
-/
namespace Dlhn.Props

open Spec De StdTypes Convert

variable {α β : Type}

/-! ## Decoding checks -/

/-- On every reader decoding a `T` does what decoding a `U` does, with the same `read` calls and
leaving the reader in the same state; only the result is converted. -/
theorem C131_exact (t : Target) (de : Impl β) (tryFrom : β → Except String α) {σ : Type}
    (step : RStep σ) (s s' : σ) (cs : List ReadRes) (o : Outcome DeErr α) :
    Runs step t ((tryFromDe de tryFrom).run t) s cs o s' ↔
      ∃ o', Runs step t (de.run t) s cs o' s' ∧ o = converted tryFrom o' := by
  rw [tryFromDe, Impl.run, Runs.bind_iff]
  constructor
  · rintro (⟨b, cs1, s1, cs2, rfl, h1, h2⟩ | ⟨e, rfl, h⟩ | ⟨q, rfl, h⟩)
    · have : cs2 = [] ∧ s1 = s' ∧ o = converted tryFrom (.ok b) := by
        rw [converted]
        cases hf : tryFrom b <;> rw [hf] at h2 <;> simp only [Impl.run] at h2 <;> cases h2 <;>
          exact ⟨rfl, rfl, rfl⟩
      obtain ⟨rfl, rfl, rfl⟩ := this
      exact ⟨_, by rwa [List.append_nil], rfl⟩
    · exact ⟨_, h, rfl⟩
    · exact ⟨_, h, rfl⟩
  · rintro ⟨b | e | q, h, rfl⟩
    · refine .inl ⟨b, cs, s', [], by simp, h, ?_⟩
      rw [converted]
      cases tryFrom b <;> exact .done _ _
    · exact .inr (.inl ⟨e, rfl, h⟩)
    · exact .inr (.inr ⟨q, rfl, h⟩)

/-- So no data whatsoever, on no reader, give a `T` that did not pass the conversion. -/
theorem C131_checked (t : Target) (de : Impl β) (tryFrom : β → Except String α) (P : α → Prop)
    (hP : ∀ b a, tryFrom b = .ok a → P a) : Only t (tryFromDe de tryFrom) P := by
  intro σ step s s' cs v h
  obtain ⟨b | e | q, -, ho⟩ := (C131_exact t de tryFrom step s s' cs _).mp h
  · rw [converted] at ho
    cases hf : tryFrom b with
    | ok a => rw [hf] at ho; cases ho; exact hP b _ hf
    | error m => rw [hf] at ho; cases ho
  · cases ho
  · cases ho

/-- With `from`, which cannot fail, what holds of every conversion. -/
theorem C131_from (t : Target) (de : Impl β) (from_ : β → α) (P : α → Prop) (Q : β → Prop)
    (hQ : Only t de Q) (hP : ∀ b, Q b → P (from_ b)) : Only t (fromDe de from_) P := by
  intro σ step s s' cs v h
  rw [fromDe, Impl.run] at h
  obtain ⟨b, cs1, s1, cs2, h1, h2⟩ := Runs.bind_ok h
  rw [Impl.run] at h2
  cases Runs.done_ok h2
  exact hP b (hQ _ _ _ _ _ _ h1)

/-- The check reaches into everything that contains a `T`: options, vectors, maps (as key or as
value), structs and enums. -/
theorem C131_within (t : Target) {γ δ : Type} (a : Impl α) (b : Impl β) (P : α → Prop)
    (Q : β → Prop) (hP : Only t a P) (hQ : Only t b Q) :
    Only t (optionDe a) (fun o => ∀ x ∈ o, P x) ∧
    Only t (vecDe a) (fun xs => ∀ x ∈ xs, P x) ∧
    Only t (entriesDe a b) (fun es => ∀ e ∈ es, P e.1 ∧ Q e.2) ∧
    (∀ (name n1 n2 : String) (finish : α → β → Except DeErr γ) (R : γ → Prop), n1 ≠ n2 →
      (∀ x y r, P x → Q y → finish x y = .ok r → R r) →
      Only t (pairDe name n1 n2 a b finish) R) ∧
    (∀ name n1 n2 : String, Only t (eitherDe name n1 n2 a b)
      (fun r => (∀ x, r = .inl x → P x) ∧ ∀ y, r = .inr y → Q y)) ∧
    (∀ (de : Impl δ) (tryFrom : δ → Except String α), Only t de (fun d => ∀ x, tryFrom d = .ok x → P x) →
      Only t (tryFromDe de tryFrom) P) := by
  refine ⟨?_, ?_, ?_, ?_, ?_, ?_⟩ <;> intro
  · intro step s s' cs v h
    rw [optionDe, Impl.run] at h
    obtain ⟨x, cs1, s1, cs2, -, h⟩ := Runs.bind_ok h
    split at h
    · rw [Impl.run] at h
      obtain ⟨y, cs3, s3, cs4, h1, h⟩ := Runs.bind_ok h
      rw [Impl.run] at h
      cases Runs.done_ok h
      intro z hz
      cases hz
      exact hP _ _ _ _ _ _ h1
    · rw [Impl.run] at h
      cases Runs.done_ok h
      intro z hz
      cases hz
  · intro step s s' cs v h
    rw [vecDe, Impl.run] at h
    obtain ⟨x, cs1, s1, cs2, -, h⟩ := Runs.bind_ok h
    rw [run_collectSeq] at h
    obtain ⟨xs, cs3, s3, cs4, h1, h⟩ := Runs.bind_ok h
    cases Runs.done_ok h
    exact Runs.times (fun _ _ _ _ h => hP _ _ _ _ _ _ h) _ h1
  · intro step s s' cs v h
    rw [entriesDe, Impl.run] at h
    obtain ⟨x, cs1, s1, cs2, -, h⟩ := Runs.bind_ok h
    rw [run_collectMap] at h
    obtain ⟨xs, cs3, s3, cs4, h1, h⟩ := Runs.bind_ok h
    cases Runs.done_ok h
    refine Runs.times (fun _ _ _ _ h => ?_) _ h1
    obtain ⟨k, cs5, s5, cs6, hk, h⟩ := Runs.bind_ok h
    obtain ⟨v, cs7, s7, cs8, hv, h⟩ := Runs.bind_ok h
    cases Runs.done_ok h
    exact ⟨hP _ _ _ _ _ _ hk, hQ _ _ _ _ _ _ hv⟩
  · rename_i name
    intro n1 n2 finish R hn hR σ step s s' cs v h
    rw [run_pair t hn] at h
    obtain ⟨x, cs1, s1, cs2, h1, h⟩ := Runs.bind_ok h
    obtain ⟨y, cs3, s3, cs4, h2, h⟩ := Runs.bind_ok h
    cases hf : finish x y with
    | ok r =>
      rw [hf, ofExcept] at h
      cases Runs.done_ok h
      exact hR x y _ (hP _ _ _ _ _ _ h1) (hQ _ _ _ _ _ _ h2) hf
    | error e => rw [hf, ofExcept] at h; cases h
  · intro n1 n2 σ step s s' cs v h
    rw [eitherDe, Impl.run] at h
    obtain ⟨i, cs1, s1, cs2, -, h⟩ := Runs.bind_ok h
    split at h
    · rw [VariantImpl.run] at h
      obtain ⟨x, cs3, s3, cs4, h1, h⟩ := Runs.bind_ok h
      cases Runs.done_ok h
      exact ⟨fun y hy => by cases hy; exact hP _ _ _ _ _ _ h1, fun y hy => by cases hy⟩
    · rw [VariantImpl.run] at h
      obtain ⟨x, cs3, s3, cs4, h1, h⟩ := Runs.bind_ok h
      cases Runs.done_ok h
      exact ⟨fun y hy => (by cases hy), fun y hy => (by cases hy; exact hQ _ _ _ _ _ _ h1)⟩
  · rename_i de
    intro tryFrom hd σ step s s' cs v h
    obtain ⟨b | e | q, hb, ho⟩ := (C131_exact t de tryFrom step s s' cs _).mp h
    · rw [converted] at ho
      cases hf : tryFrom b with
      | ok a => rw [hf] at ho; cases ho; exact hd _ _ _ _ _ _ hb _ hf
      | error m => rw [hf] at ho; cases ho
    · cases ho
    · cases ho

/-- `struct Percent(u8)` with `try_from = "u8"`: at most 100. -/
def percent (b : UInt8) : Except String UInt8 :=
  if b ≤ 100 then .ok b else .error "more than 100"

theorem percent_le (b a : UInt8) (h : percent b = .ok a) : a ≤ 100 := by
  unfold percent at h
  split at h
  · cases h; assumption
  · cases h

/-- `BTreeMap<Percent, Vec<Option<Percent>>>` -/
def percentsDe : Impl (List (UInt8 × List (Option UInt8))) :=
  entriesDe (tryFromDe .u8 percent) (vecDe (optionDe (tryFromDe .u8 percent)))

example (t : Target) : Only t percentsDe fun es => ∀ e ∈ es, e.1 ≤ 100 ∧
    ∀ o ∈ e.2, ∀ x ∈ o, x ≤ (100 : UInt8) := by
  have h := C131_checked t .u8 percent (· ≤ 100) percent_le
  have h1 := (C131_within t (γ := Unit) (δ := Unit) _ _ _ _ h h).1
  have h2 := (C131_within t (γ := Unit) (δ := Unit) _ _ _ _ h1 h).2.1
  exact (C131_within t (γ := Unit) (δ := Unit) _ _ _ _ h h2).2.2.1

/-- Such values do come out: one entry, 40 to `[None, Some(100)]`. -/
example (t : Target) : Prog.run t (percentsDe.run t) [1, 40, 2, 0, 1, 100, 9]
    = .ok ([(40, [none, some 100])], [9]) ∧
    Prog.run t (percentsDe.run t) [1, 40, 2, 0, 1, 101, 9] = .err (.message "more than 100") := by
  obtain ⟨_ | _, m⟩ := t <;> exact ⟨rfl, rfl⟩

/-- Without the attribute any byte is taken. -/
example (t : Target) : ¬ Only t .u8 (fun x => x ≤ (100 : UInt8)) := by
  intro h
  have hr : Runs (fun (_ : Unit) _ r _ => r = .ok [200]) t (Impl.u8.run t) () ([.ok [200]] ++ [])
      (.ok 200) () :=
    .readExact ⟨#[200], rfl⟩ (.more (by decide) rfl (by simp) (.full _ _)) (.done _ _)
  exact absurd (h _ _ _ _ _ _ hr) (by decide)

/-! ## There and back -/

/-- If `U` comes back and the conversion undoes `into`, `T` comes back, in the bytes of `U`. -/
theorem C131_roundtrip (t : Target) (ser : β → SerImpl) (de : Impl β) (into : α → β)
    (tryFrom : β → Except String α) (a : α) (h : ThereAndBack t (ser (into a)) de (into a))
    (ha : tryFrom (into a) = .ok a) :
    ThereAndBack t (intoSer ser into a) (tryFromDe de tryFrom) a := by
  obtain ⟨enc, hw, hr⟩ := h
  refine ⟨enc, hw, fun rest => ?_⟩
  rw [tryFromDe, Impl.run, reads_bind (hr rest), ha]
  rfl

/-- Two values that are converted to the same `U` do not both come back. -/
theorem C131_lossy (t : Target) (ser : β → SerImpl) (de : Impl α) (into : α → β) (a a' : α)
    (h : into a = into a') (hne : a ≠ a') :
    ¬ (ThereAndBack t (intoSer ser into a) de a ∧ ThereAndBack t (intoSer ser into a') de a') := by
  rintro ⟨⟨enc, hw, hr⟩, ⟨enc', hw', hr'⟩⟩
  rw [intoSer, h] at hw
  rw [Writes, intoSer] at hw'
  rw [Writes, hw'] at hw
  obtain rfl := (Prod.mk.injEq _ _ _ _ ▸ hw : enc' = enc ∧ _).1
  have h1 := hr []
  rw [hr' []] at h1
  cases h1
  exact hne rfl

/-- If the conversion of a `U` fails, the result is `Err` with its message; the `U` has been read,
and nothing after it. -/
theorem C131_refused (t : Target) (de : Impl β) (tryFrom : β → Except String α) (b : β)
    (enc : List UInt8) (msg : String) (hr : Reads t de enc b) (hb : tryFrom b = .error msg)
    (rest : List UInt8) :
    ((tryFromDe de tryFrom).run t).execAt t (enc ++ rest) = (.err (.message msg), rest) := by
  rw [tryFromDe, Impl.run, Prog.execAt_bind, Prog.execAt_of_run (hr rest)]
  dsimp only
  rw [hb]
  rfl

/-- What is decoded, if `into` undoes the conversion, is encoded as the `U` it was made from: data
in the form `U` is written in come out again byte for byte. -/
theorem C131_again (t : Target) (ser : β → SerImpl) (de : Impl β) (into : α → β)
    (tryFrom : β → Except String α) (b : β) (a : α) (enc : List UInt8) (hw : Writes (ser b) enc)
    (hr : Reads t de enc b) (hb : tryFrom b = .ok a) (hi : into a = b) :
    Reads t (tryFromDe de tryFrom) enc a ∧ Writes (intoSer ser into a) enc := by
  refine ⟨fun rest => ?_, by rw [intoSer, hi]; exact hw⟩
  rw [tryFromDe, Impl.run, reads_bind (hr rest), hb]
  rfl

/-- Hostile data: if decoding a `U` never panics, neither does decoding a `T`. -/
theorem C131_returns (t : Target) (hm : 4096 ≤ t.memLimit) (de : Impl β) (h : NoTodo de)
    (tryFrom : β → Except String α) (size : Nat → Nat) (s : Script) :
    (Prog.runScript t size ((tryFromDe de tryFrom).run t) s).returns := by
  refine C87_returns t hm _ ?_ size s
  rw [tryFromDe, NoTodo]
  refine ⟨h, fun b => ?_⟩
  cases tryFrom b <;> simp [NoTodo]

example (t : Target) : ThereAndBack t (intoSer SerImpl.u8 id 40) (tryFromDe .u8 percent) 40 ∧
    ((tryFromDe .u8 percent).run t).execAt t [200, 7]
      = (.err (.message "more than 100"), [7]) := by
  refine ⟨C131_roundtrip t .u8 .u8 id percent 40 ⟨[40], ?_, reads_u8 t 40⟩ rfl,
    C131_refused t .u8 percent 200 [200] _ (reads_u8 t 200) rfl [7]⟩
  rw [writes_iff]; rfl

/-- An `into` that gives every value the same number loses the difference. -/
example (t : Target) (de : Impl Bool) : ¬ (ThereAndBack t (intoSer SerImpl.u8 (fun _ => 0) true) de
    true ∧ ThereAndBack t (intoSer SerImpl.u8 (fun _ => 0) false) de false) :=
  C131_lossy t .u8 de (fun _ => 0) true false rfl (by decide)

/-! ## `transparent` -/

/-- `#[serde(transparent)]` changes nothing in dlhn: a newtype struct is written and read as the
value inside with and without it, and so is a struct with a single named field. -/
theorem C131_transparent (t : Target) (name field : String) (p : SerImpl) (i : Impl α) (v : Val)
    (ty : Ty) :
    (SerImpl.newtypeStruct name p).run = p.run ∧
    (Impl.newtypeStruct name i).run t = i.run t ∧
    Ser.toVec (.struct name [(field, v)]) = Ser.toVec v ∧
    (∀ bs, Prog.run t (de t (.struct name [(field, ty)])) bs
      = (Prog.run t (de t ty) bs).map fun r => (.struct name [(field, r.1)], r.2)) := by
  refine ⟨by rw [SerImpl.run], by rw [Impl.run], ?_, fun bs => ?_⟩
  · have : Ser.ser (.struct name [(field, v)]) = (Ser.ser v).andThen (.done (.ok ())) := by
      rw [Ser.ser, Ser.serFields, Ser.serFields]; rfl
    rw [Ser.toVec, Ser.toVec, this, WProg.exec_andThen]
    rcases h : (Ser.ser v).exec with ⟨o, _ | _ | _⟩ <;> simp [WProg.exec]
  · rw [de, deFields, deFields]
    simp only [Prog.bind_eq, Prog.pure_eq, Prog.run, Prog.exec_bind]
    cases Prog.exec t .eof (de t ty) bs <;> rfl

/-! ## The header -/

/-- `#[serde(into = "String")] struct V { major: u8, minor: u8 }` -/
def versionTy : RTy := .struct "V" (.named [.mk [] "major" .u8, .mk [] "minor" .u8])

/-- `#[derive(SerializeHeader)]` does not look at `into`: the header is that of the fields. Under
it, whatever the conversion, a text of 1 to 127 bytes is read as two other numbers, its length and
its first byte, and the rest of the text is left in the stream. -/
theorem C131_header (t : Target) (mode : BuildMode) (size : Nat) (hm : 2 * size ≤ t.memLimit)
    (hp : 2 * size ≤ t.isizeMax) :
    Announces versionTy (.tuple [.uint8, .uint8]) ∧
    ∀ (into : UInt8 × UInt8 → String) (v : UInt8 × UInt8), (utf8 (into v)).length < 128 →
      ∀ (b : UInt8) (text : List UInt8), utf8 (into v) = b :: text →
      ∃ enc, Writes (intoSer SerImpl.str into v) enc ∧
        ∀ rest, Prog.run t (Body.de t mode size (.tuple [.uint8, .uint8])) (enc ++ rest)
          = .ok (.tuple [.uint8 (UInt8.ofNat (text.length + 1)), .uint8 b], text ++ rest) := by
  refine ⟨(announces_iff _ _).mpr ⟨.struct _ _ _ (by decide) (.cons _ _ _ _ .u8 (.cons _ _ _ _
    .u8 .nil)), by simp [Countable, AllCountable]⟩, fun into v hl b text ht => ?_⟩
  rw [ht] at hl
  refine ⟨UInt8.ofNat (text.length + 1) :: b :: text, ?_, fun rest => ?_⟩
  · rw [writes_iff, intoSer, written, ht, counted, lengthWire,
      Nat.mod_eq_of_lt (by omega), varint_byte 64 _ (by omega) hl]
    rfl
  · have ha : t.allocate (2 * size) = none := by
      rw [Target.allocate, if_neg (by omega), if_neg (by omega)]
    rw [Prog.run, Body.de, Prog.exec]
    simp only [List.length_cons, List.length_nil, Nat.zero_add]
    rw [ha]
    rfl

/-- Version 1.2 as the text `"1.2"`: read as 3.49. -/
example (t : Target) (mode : BuildMode) (hm : 16 ≤ t.memLimit) :
    Writes (intoSer SerImpl.str (fun _ => "1.2") ((1, 2) : UInt8 × UInt8)) [3, 49, 46, 50] ∧
    Prog.run t (Body.de t mode 8 (.tuple [.uint8, .uint8])) [3, 49, 46, 50]
      = .ok (.tuple [.uint8 3, .uint8 49], [46, 50]) := by
  have hu : utf8 "1.2" = 49 :: [46, 50] := by decide +kernel
  have hp : 2 * 8 ≤ t.isizeMax := by cases hw : t.ptr <;> simp [Target.isizeMax, hw, PtrWidth.bits]
  obtain ⟨enc, hw, hr⟩ := (C131_header t mode 8 hm hp).2 (fun _ => "1.2") (1, 2) (by
    rw [hu]; decide) 49 [46, 50] hu
  have he : enc = [3, 49, 46, 50] := by
    have : Writes (intoSer SerImpl.str (fun _ => "1.2") ((1, 2) : UInt8 × UInt8)) [3, 49, 46, 50] := by
      rw [writes_iff]; decide +kernel
    rw [Writes] at hw this
    rw [hw] at this
    exact (Prod.mk.injEq _ _ _ _ ▸ this : enc = _ ∧ _).1
  subst he
  refine ⟨hw, ?_⟩
  have := hr []
  simpa using this

end Dlhn.Props
