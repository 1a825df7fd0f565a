import Verif.Proof.DeriveYield
import Verif.Props.DeriveAgree
/-!
# C79: re-encoding decoded values of Rust types
-/
namespace Dlhn.Props

open Spec hiding variantFields
open Derive

/-! ## C79 canonical re-encoding -/

/-- Whatever bytes a value was read from, canonical or not: writing it succeeds, and
reading that again gives the same value (up to the iteration order of `HashMap`s and
the representation of decimals), from any reader and whatever follows. -/
theorem C79_again (t : Target) (hm : 4096 ≤ t.memLimit) (mode : BuildMode)
    (env : Env) (ho : FairOrder env) (T : RTy) (hr : Readable T) (hs : Symmetric T)
    (hd : Defaulted env T) (fin : Ending) (bs rest : List UInt8) (w : Carrier T)
    (hw : Prog.exec t fin (deTy t mode env T) bs = .ok (w, rest)) (hn : DecimalsNormalise T w)
    (hb : BuffersFit t T w) :
    ∃ enc w', (ser mode T w).exec = (enc, .ok ()) ∧ Returned env T w w' ∧
      ∀ fin rest', Prog.exec t fin (deTy t mode env T) (enc ++ rest') = .ok (w', rest') := by
  obtain ⟨n, -, hd'⟩ := decoded (t' := t) (.inr rfl) mode env ho T hr hs hd false (fun _ _ _ => rfl) hw
  obtain ⟨w', enc, h1, h2⟩ := reads t mode env ho hm T
    (fun U hU => ⟨hr U hU, hs U hU, hd U hU⟩) w (hd'.ok hn hb)
  exact ⟨enc, w', h2.bytes, h1, h2.decodes⟩

/-- Without `bigdecimal::BigDecimal`s and `HashMap`s it is exactly the same value, skipped
fields and timestamps included: the bytes written are a normal form of those read. -/
theorem C79_same (t : Target) (hm : 4096 ≤ t.memLimit) (mode : BuildMode)
    (env : Env) (ho : FairOrder env) (T : RTy) (hr : Readable T) (hs : Symmetric T)
    (hd : Defaulted env T) (hdet : Determined T) (fin : Ending) (bs rest : List UInt8)
    (w : Carrier T) (hw : Prog.exec t fin (deTy t mode env T) bs = .ok (w, rest))
    (hb : BuffersFit t T w) : ∃ enc, (ser mode T w).exec = (enc, .ok ()) ∧
      ∀ fin rest', Prog.exec t fin (deTy t mode env T) (enc ++ rest') = .ok (w, rest') := by
  have hn : ∀ v : Carrier T, DecimalsNormalise T v := fun v d hp =>
    absurd rfl (hdet _ (part_type T v _ hp)).1
  obtain ⟨n, -, hd'⟩ := decoded (t' := ⟨.w64, 0⟩) (.inl rfl) mode env ho T hr hs hd false (fun _ _ _ => rfl) hw
  obtain ⟨enc, w', h1, h2, h3⟩ := C79_again t hm mode env ho T hr hs hd fin bs rest w hw (hn w) hb
  obtain ⟨m, -, hb'⟩ := decoded (t' := ⟨.w64, 0⟩) (.inl rfl) mode env ho T hr hs hd false (fun _ _ _ => rfl) (h3 fin rest)
  have := returned_unique (t := ⟨.w64, 0⟩) (mode := mode) env T
    (fun U hU => ⟨hs U hU, (hdet U hU).1, (hdet U hU).2⟩) w w' w (hb'.ok (hn w') (.inl rfl))
    (hd'.ok (hn w) (.inl rfl)) h2 hd'.again
  subst this
  exact ⟨enc, h1, h3⟩

/-- Re-encoding takes no more bytes than were read, unless a decimal or timestamp of
another crate is normalised. -/
theorem C79_shorter (t : Target) (mode : BuildMode) (env : Env)
    (ho : FairOrder env) (T : RTy) (hr : Readable T) (hs : Symmetric T) (hd : Defaulted env T)
    (hu : Unnormalised T) (fin : Ending) (bs rest : List UInt8) (w : Carrier T)
    (hw : Prog.exec t fin (deTy t mode env T) bs = .ok (w, rest)) :
    (ser mode T w).exec.1.length + rest.length ≤ bs.length := by
  obtain ⟨n, hl, hb⟩ := decoded (t' := t) (.inr rfl) mode env ho T hr hs hd true (fun U hU e => by
    rcases e with e | e
    · exact absurd e (hu U hU).2
    · exact absurd e (hu U hU).1) hw
  have : (ser mode T w).exec.1.length ≤ n := hb.length
  omega

/-- The sample record meets the hypotheses. -/
theorem record_determined : Determined recordTy ∧ Unnormalised recordTy := by
  have k1 : ¬ Skipped [] := by decide
  have k2 : Skipped [skipAttr] := by decide
  have k3 : ¬ Skipped [docAttr] := by decide
  constructor
  · intro U hU
    simp [recordTy, shapeTy, typeParts, typePartsFields, typePartsVariants, k1, k2, k3] at hU
    rcases hU with rfl | rfl | rfl | rfl | rfl | rfl | rfl | rfl | rfl | rfl <;> simp
  · intro U hU
    simp [recordTy, shapeTy, typeParts, typePartsFields, typePartsVariants, k1, k2, k3] at hU
    rcases hU with rfl | rfl | rfl | rfl | rfl | rfl | rfl | rfl | rfl | rfl <;> simp

/-- So every input it accepts has a normal form. -/
example (t : Target) (hm : 4096 ≤ t.memLimit) (h3 : t.allocate 3 = none)
    (mode : BuildMode) (bs rest : List UInt8) (w : Carrier recordTy)
    (hw : Prog.run t (deTy t mode sampleEnv recordTy) bs = .ok (w, rest)) :
    ∃ enc, (ser mode recordTy w).exec = (enc, .ok ()) ∧ enc.length + rest.length ≤ bs.length ∧
      ∀ fin rest', Prog.exec t fin (deTy t mode sampleEnv recordTy) (enc ++ rest') = .ok (w, rest') := by
  obtain ⟨h1, h2, h3, -⟩ := record_reads t h3 mode
  have hb : BuffersFit t recordTy w := .inr fun b hp => by
    have k1 : ¬ Skipped [] := by decide
    have k2 : Skipped [skipAttr] := by decide
    have k3 : ¬ Skipped [docAttr] := by decide
    have := part_type recordTy w _ hp
    simp [recordTy, shapeTy, typeParts, typePartsFields, typePartsVariants, k1, k2, k3] at this
  obtain ⟨enc, e1, e2⟩ := C79_same t hm mode sampleEnv sample_fair _ h1 h2 h3
    record_determined.1 .eof bs rest w hw hb
  have := C79_shorter t mode sampleEnv sample_fair _ h1 h2 h3 record_determined.2 .eof bs rest w hw
  rw [e1] at this
  exact ⟨enc, e1, this, e2⟩

/-- An input no writer produces, with an overlong number and a key twice, and its normal
form. -/
example (mode : BuildMode) :
    Prog.run ⟨.w64, 4096⟩ (deTy ⟨.w64, 4096⟩ mode sampleEnv recordTy)
        [0x85, 0, 0, 2, 1, 97, 0, 1, 97, 1, 6, 9] =
      .ok ((5, .char '\x00', [], [("a", some 3)], ()), [9]) ∧
    (ser mode recordTy (5, .char '\x00', [], [("a", some 3)], ())).exec =
      ([5, 0, 1, 1, 97, 1, 6], .ok ()) := by
  cases mode <;> exact ⟨rfl, rfl⟩

/-- The exception for lengths is needed. A decimal can take more bytes: ten with scale -64
is read from three bytes, and written as one with scale -65 in four. -/
theorem C79_decimal_grows (mode : BuildMode) (env : Env) (t : Target) :
    Prog.run t (deTy t mode env .numBigDecimal) [1, 10, 127] = .ok ((⟨10, -64⟩ : Num.Decimal), []) ∧
      (ser mode .numBigDecimal (⟨10, -64⟩ : Num.Decimal)).exec = ([1, 1, 129, 2], .ok ()) := by
  rw [deTy, ser]
  obtain ⟨ptr, m⟩ := t
  exact ⟨by cases ptr <;> rfl, by cases mode <;> decide +kernel⟩

/-- A timestamp can take more bytes: 63 seconds and 1999999999 nanoseconds are read from
six bytes, and written as 64 seconds and 999999999 nanoseconds in seven. -/
theorem C79_timestamp_grows (mode : BuildMode) (env : Env) (t : Target) :
    Prog.run t (deTy t mode env .offsetDateTime) [126, 240, 255, 147, 53, 119] =
        .ok ((⟨64, 999999999, 0⟩ : Time.OffsetDateTime), []) ∧
      (ser mode .offsetDateTime (⟨64, 999999999, 0⟩ : Time.OffsetDateTime)).exec =
        ([128, 2, 240, 255, 201, 154, 59], .ok ()) := by
  rw [deTy, ser]
  exact ⟨rfl, rfl⟩

/-- The condition on decimals is needed: ten with the smallest scale is read, but in builds
with overflow checks writing it panics. -/
theorem C79_decimal_panics (env : Env) (t : Target) :
    Prog.run t (deTy t .debug env .numBigDecimal)
        [1, 10, 255, 255, 255, 255, 255, 255, 255, 255, 255] =
        .ok ((⟨10, Int64.minValue⟩ : Num.Decimal), []) ∧
      (ser .debug .numBigDecimal (⟨10, Int64.minValue⟩ : Num.Decimal)).exec = ([], .panic .overflow) := by
  rw [deTy, ser]
  obtain ⟨ptr, m⟩ := t
  exact ⟨by cases ptr <;> rfl, by decide +kernel⟩

end Dlhn.Props
