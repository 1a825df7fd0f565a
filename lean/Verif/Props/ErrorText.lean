import Verif.Proof.ErrorText
import Verif.Props.Errors
import Verif.Props.Date
import Verif.Proof.DeriveAgree
/-!
# C148: what errors say

`to_string` of an error, `DeErr.display` and `SerErr.display` in the model, is what users see and
log. The specification of the texts is in Spec/ErrorText.lean.
-/
namespace Dlhn.Props
open Dlhn Spec De

/-! ## The text tells the error -/

/-- An error is told by its text: errors with the same text are equal, unless a message has the
text of one of the other errors. -/
theorem C148_told (e f : DeErr) (h : e.display = f.display) :
    e = f ∨ ∃ m ∈ ["Read error", "The size of the char is more than 32bit", "Unsupported Key Type"],
      e = .message m ∨ f = .message m := by
  cases e <;> cases f <;> simp_all [DeErr.display]

/-- The same for the errors of serialization. -/
theorem C148_told_ser (e f : SerErr) (h : e.display = f.display) :
    e = f ∨ ∃ m ∈ ["write error", "unsupported key type"], e = .message m ∨ f = .message m := by
  cases e <;> cases f <;> simp_all [SerErr.display]

/-- The exception is needed: an implementation may say "Read error" too. -/
example : DeErr.read ≠ .custom "Read error" ∧
    DeErr.read.display = (DeErr.custom "Read error").display := by decide

/-- What an implementation passes to `Error::custom` is the text, whatever it is, and the same text
is shown where the error is named as what was expected. -/
theorem C148_custom (m : String) : (DeErr.custom m).display = m ∧ (DeErr.custom m).expected = m ∧
    (SerErr.custom m).display = m := ⟨rfl, rfl, rfl⟩

theorem C148_expected (e : DeErr) : e.expected = e.display := by cases e <;> rfl

/-- It also is the text where the implementation is of a member of a tuple, behind others that
decode. -/
theorem C148_custom_member {α β : Type} (t : Target) (pre : Impl α) (a : α) (m : String)
    (fin : Ending) (bs rest : List UInt8) (h : Prog.exec t fin (pre.run t) bs = .ok (a, rest)) :
    (Prog.exec t fin ((Impl.andThen pre fun _ => (.error (.custom m) : Impl β)).run t) bs).mapErr
      DeErr.display = .err m := by
  rw [Impl.run, Prog.exec_bind, h, Prog.next_ok, Impl.run]
  rfl

/-! ## Decoding -/

/-- Decoding a type, whatever the data: the text is that of `Read`, of `CharSize` (only if the type
has characters), the refusal of a 128-bit integer that the type has; or it names an index that is
in the data, and the number of variants of an enum in the type, none of which has this index. -/
theorem C148_typed (t : Target) (ty : Ty) (fin : Ending) (bs : List UInt8) (e : DeErr)
    (h : Prog.exec t fin (de t ty) bs = .err e) :
    e.display = "Read error" ∨
    (e.display = "The size of the char is more than 32bit" ∧ Raises .charSize ty) ∨
    NamesIndex (fun n => ∃ name vs, .enum name vs ∈ innerTypes ty ∧ vs.length = n) e.display bs ∨
    (.i128 ∈ innerTypes ty ∧ e.display = "i128 is not supported") ∨
    (.u128 ∈ innerTypes ty ∧ e.display = "u128 is not supported") := by
  have ho := (outcomes_de t ty).exec t fin bs
  rw [h] at ho
  obtain ⟨f, hf, hr⟩ := ho
  cases f with
  | read => cases hf; exact .inl rfl
  | charSize => cases hf; exact .inr (.inl ⟨rfl, hr⟩)
  | message =>
    obtain ⟨m, rfl⟩ := hf
    exact .inr (.inr (tells_de t (innerTypes ty) ty (fun _ h => h) fin bs m h))

/-- An index that no variant has is reported so, always. -/
theorem C148_unknown (t : Target) (name : String) (vs : List (String × VTy)) (i : Nat)
    (bs rest : List UInt8) (h : varintDecode 16 bs = some (i, rest)) (hi : vs.length ≤ i) :
    (Prog.run t (de t (.enum name vs)) bs).mapErr DeErr.display
      = .err (unknownIndexText i vs.length) := by
  have hlt := varintDecode_lt (by simp) h
  have hi16 : (UInt16.ofNat i).toNat = i := by rw [UInt16.toNat_ofNat', Nat.mod_eq_of_lt hlt]
  rw [de, Prog.run, Prog.bind_eq, Prog.exec_bind, exec_u16, h]
  show Outcome.mapErr _ (Prog.exec t .eof (deVariant t name (UInt16.ofNat i) _ vs) rest) = _
  rw [hi16, deVariant_past t name _ i vs hi, hi16, unknownVariant_text,
    show i - (i - vs.length) = vs.length by omega]
  rfl

/-- `enum E { A, B }`, inside a vector: the second element is a bad one. -/
example : (Prog.run ⟨.w64, 4096⟩ (de ⟨.w64, 4096⟩ (.seq (.enum "E" [("A", .unit), ("B", .unit)])))
      [2, 1, 129, 1, 7]).mapErr DeErr.display
    = .err "invalid value: integer `65`, expected variant index 0 <= i < 2" := by rfl

example : NamesIndex (fun n => ∃ name vs,
      .enum name vs ∈ innerTypes (.seq (.enum "E" [("A", .unit), ("B", .unit)])) ∧ vs.length = n)
    "invalid value: integer `65`, expected variant index 0 <= i < 2" [2, 1, 129, 1, 7] :=
  ⟨2, 65, 2, [7], by decide +kernel, ⟨"E", [("A", .unit), ("B", .unit)], by simp [innerTypes], rfl⟩, by decide, by decide +kernel⟩

/-- Derived types that compile: the text is that of `Read`; or names an index that is in the data
and the number of readable variants of an enum in the type; or is the fixed one for dates of the
`time` crate out of range, if the type has some. -/
theorem C148_derived (t : Target) (mode : BuildMode) (env : Derive.Env) (T : RTy)
    (hc : CompilesDe env T) (fin : Ending) (bs : List UInt8) (e : DeErr)
    (h : Prog.exec t fin (Derive.deTy t mode env T) bs = .err e) :
    e.display = "Read error" ∨
    NamesIndex (fun n => ∃ name vs, .enum name vs ∈ readParts T ∧ readCount vs = n) e.display bs ∨
    ((.timeDate ∈ readParts T ∨ .offsetDateTime ∈ readParts T) ∧ e.display = badDateText) := by
  have ho := (Derive.outcomes_deTy t mode env T).exec t fin bs
  rw [h] at ho
  rcases ho with rfl | ⟨⟨m, rfl⟩, -⟩
  · exact .inl rfl
  · exact .inr (Derive.tells_deTy t mode env (readParts T) hc T (fun _ h => h) fin bs m h)

/-- `enum E { #[serde(skip)] A, B(time::Date), C }` -/
def errorTextTy : RTy := .enum "E" [.mk [skipAttr] "A" .unit,
  .mk [] "B" (.unnamed [.mk [] "0" .timeDate]), .mk [] "C" .unit]

example (env : Derive.Env) : CompilesDe env errorTextTy := by
  intro U hU
  have h1 : SkippedDe [skipAttr] := by decide
  have h2 : ¬ SkippedDe [] := by decide
  simp only [errorTextTy, readParts, readPartsVariants, readPartsPayload, readPartsFields, h1, h2,
    if_true, if_false, List.nil_append, List.append_nil, List.mem_cons, List.not_mem_nil, or_false] at hU
  rcases hU with rfl | rfl
  · refine ⟨?_, by simp, by simp⟩
    intro v hv f hf hs
    simp only [List.mem_cons, List.not_mem_nil, or_false] at hv
    rcases hv with rfl | rfl | rfl
    · simp [variantFields, declared] at hf
    · simp [variantFields, declared] at hf
      subst hf
      exact absurd hs h2
    · simp [variantFields, declared] at hf
  · exact ⟨trivial, by simp, by simp⟩

/-- Its index 2, and a date in the year 20000. -/
example (env : Derive.Env) :
    (Prog.run ⟨.w64, 4096⟩ (Derive.deTy ⟨.w64, 4096⟩ .debug env errorTextTy) [2]).mapErr DeErr.display
      = .err "invalid value: integer `2`, expected variant index 0 <= i < 2" ∧
    (Prog.run ⟨.w64, 4096⟩ (Derive.deTy ⟨.w64, 4096⟩ .debug env errorTextTy)
      [0, 0xe0, 0xa0, 0x8c, 0x00, 5]).mapErr DeErr.display = .err badDateText := ⟨rfl, rfl⟩

/-- Data that are a date for the dynamic decoder, but one that no calendar has: the fixed text. -/
theorem C148_date (t : Target) (mode : BuildMode) (size : Nat) (env : Derive.Env) (fin : Ending)
    (bs rest : List UInt8) (d : Date)
    (h : Prog.exec t fin (Body.de t mode size .date) bs = .ok (.date d, rest))
    (hn : ¬ ExistingDay d.year.toInt d.ordinal.toNat) :
    (Prog.exec t fin (Derive.deTy t mode env .timeDate) bs).mapErr DeErr.display
      = .err badDateText := by
  rw [Body.de, Prog.bind_eq, Prog.exec_bind] at h
  rw [Derive.deTy, Format.exec_deDate_eq]
  cases hx : Prog.exec t fin (Date.de mode) bs with
  | err f => rw [hx] at h; cases h
  | panic k => rw [hx] at h; cases h
  | ok x =>
    obtain ⟨d', r⟩ := x
    rw [hx] at h
    cases h
    have : d.toTime = none := by
      cases hd : d.toTime with
      | none => rfl
      | some w => exact absurd ((fromOrdinalDate_eq_some _ _ _).mp hd).2 hn
    rw [Prog.next_ok, this]
    rfl

/-- The same for timestamps. -/
theorem C148_timestamp (t : Target) (mode : BuildMode) (size : Nat) (env : Derive.Env) (fin : Ending)
    (bs rest : List UInt8) (d : DateTime)
    (h : Prog.exec t fin (Body.de t mode size .dateTime) bs = .ok (.dateTime d, rest))
    (hn : d.unixTimestamp.toInt < firstSecond ∨ lastSecond < d.unixTimestamp.toInt) :
    (Prog.exec t fin (Derive.deTy t mode env .offsetDateTime) bs).mapErr DeErr.display
      = .err badDateText := by
  rw [Body.de, Prog.bind_eq, Prog.exec_bind] at h
  rw [Derive.deTy, Format.exec_deDateTime_eq]
  cases hx : Prog.exec t fin DateTime.de bs with
  | err f => rw [hx] at h; cases h
  | panic k => rw [hx] at h; cases h
  | ok x =>
    obtain ⟨d', r⟩ := x
    rw [hx] at h
    cases h
    rw [Prog.next_ok, DateTime.toTime, fromUnix_none hn]
    rfl

/-- The 366th day of 2001. -/
example : Prog.exec ⟨.w64, 4096⟩ .eof (Body.de ⟨.w64, 4096⟩ .debug 24 .date) [2, 0xAD, 5]
      = .ok (.date ⟨2001, 366⟩, []) ∧ ¬ ExistingDay 2001 366 :=
  ⟨rfl, by unfold ExistingDay Leap; decide⟩
/-- Dynamic values: always the text of `Read`. -/
theorem C148_body (t : Target) (mode : BuildMode) (size : Nat) (h : Header) (fin : Ending)
    (bs : List UInt8) (e : DeErr) (he : Prog.exec t fin (Body.de t mode size h) bs = .err e) :
    e.display = "Read error" := by
  have := (Body.outcomes_body (R := (· = .read)) rfl t mode size h).exec t fin bs
  rw [he] at this
  rw [this]; rfl

/-- The text of `CharSize` is misleading: it is not about characters that are too large (there are
none), but says that there is none, an empty string where a character should be. -/
theorem C148_char (t : Target) (bs : List UInt8) :
    (Prog.run t (de t .char) bs).mapErr DeErr.display
        = .err "The size of the char is more than 32bit" ↔
      ∃ rest, Prog.run t (de t .string) bs = .ok (.str "", rest) := by
  rw [de, de, Prog.run, Prog.run, Prog.bind_eq, Prog.bind_eq, Prog.exec_bind, Prog.exec_bind, deChar,
    Prog.bind_eq, Prog.exec_bind]
  have hs := (Prog.Outcomes.string (R := (· = .read)) rfl t).exec t .eof bs
  cases hx : Prog.exec t .eof (deString t) bs with
  | panic q =>
    constructor
    · intro h; cases h
    · rintro ⟨_, h⟩; cases h
  | err e =>
    rw [hx] at hs
    have hs : e = .read := hs
    subst hs
    constructor
    · intro h
      have h : Outcome.err "Read error" = (Outcome.err "The size of the char is more than 32bit" :
        Outcome String (Val × List UInt8)) := h
      simp at h
    · rintro ⟨_, h⟩; cases h
  | ok r =>
    obtain ⟨s, rest⟩ := r
    simp only [Prog.next_ok]
    cases hl : s.toList with
    | nil =>
      have : s = "" := String.toList_eq_nil_iff.mp hl
      subst this
      exact ⟨fun _ => ⟨rest, rfl⟩, fun _ => rfl⟩
    | cons c cs =>
      constructor
      · intro h; cases h
      · rintro ⟨r', h⟩
        have h : s = "" := by
          have h : (Outcome.ok (Val.str s, rest) : Outcome DeErr (Val × List UInt8)) = .ok (.str "", r') := h
          simp at h
          exact h.1
        subst h
        simp at hl

/-! ## Serializing -/

/-- On any writer: the text is that of `Write`, of a map key that is no string, or the refusal of
a 128-bit integer. -/
theorem C148_ser (v : Val) (s : WScript) (e : SerErr) (he : ((Ser.ser v).runScript s).2 = .err e) :
    e.display ∈ ["write error", "unsupported key type", "i128 is not supported",
      "u128 is not supported"] := by
  rcases C105_writer v s e he with rfl | h
  · simp [SerErr.display]
  · have := Ser.own_faults v e (List.mem_of_mem_head? h)
    simp only [Ser.OwnErr, List.mem_cons, List.not_mem_nil, or_false] at this
    rcases this with rfl | rfl | rfl <;> simp [SerErr.display]

/-- Each of the texts occurs. -/
example :
    (((Ser.ser (.u8 1)).runScript [.fail (.other 28)]).2).mapErr SerErr.display = .err "write error" ∧
    ((Ser.toVec (.map none [(.u8 1, .u8 2)])).2).mapErr SerErr.display = .err "unsupported key type" ∧
    ((Ser.toVec (.i128 1)).2).mapErr SerErr.display = .err "i128 is not supported" ∧
    ((Ser.toVec (.u128 1)).2).mapErr SerErr.display = .err "u128 is not supported" :=
  ⟨rfl, rfl, rfl, rfl⟩

end Dlhn.Props
