import Verif.Proof.Convert
import Verif.Model.AnyWriter
import Verif.Proof.DeriveBody
import Verif.Props.Date
import Verif.Props.BigNum
/-!
# C46 on any reader and writer

`format::*` and the newtypes compared call by call: on every reader the same calls of `read`,
and the result is the newtype's, converted; on every writer the same calls of `write`.
-/
namespace Dlhn.Props

/-- What a caller gets that decodes the newtype and converts it with `f`. -/
def thenConvert {ε α β : Type} (f : α → Outcome ε β) : Outcome ε α → Outcome ε β
  | .ok a => f a
  | .err e => .err e
  | .panic q => .panic q

theorem runs_convert {σ ε α β : Type} {step : RStep σ} {t : Target} {p : Prog ε α}
    {f : α → Outcome ε β} {s s' : σ} {cs : List ReadRes} {o : Outcome ε β} :
    Runs step t (p.bind fun a => .done (f a)) s cs o s' ↔
      ∃ x, Runs step t p s cs x s' ∧ o = thenConvert f x := by
  rw [Runs.bind_iff]
  constructor
  · rintro (⟨b, cs1, s1, cs2, rfl, h1, h2⟩ | ⟨e, rfl, h⟩ | ⟨q, rfl, h⟩)
    · cases h2
      exact ⟨_, by rw [List.append_nil]; exact h1, rfl⟩
    · exact ⟨_, h, rfl⟩
    · exact ⟨_, h, rfl⟩
  · rintro ⟨x, h, rfl⟩
    cases x with
    | ok a => exact .inl ⟨a, cs, s', [], (List.append_nil _).symm, h, .done _ _⟩
    | err e => exact .inr (.inl ⟨e, rfl, h⟩)
    | panic q => exact .inr (.inr ⟨q, rfl, h⟩)

theorem bind_assoc_prog {ε α β γ : Type} (p : Prog ε α) (f : α → Prog ε β) (g : β → Prog ε γ) :
    (p.bind f).bind g = p.bind fun a => (f a).bind g := by
  induction p with
  | done o => cases o <;> rfl
  | readExact n h k ih => simp only [Prog.bind, ih]
  | takeToEnd n h k ih => simp only [Prog.bind, ih]
  | alloc n k ih => simp only [Prog.bind, ih]

/-- `format::big_uint::deserialize` on any reader. -/
theorem C46_any_reader_big_uint (t : Target) {σ : Type} (step : RStep σ) (s s' : σ)
    (cs : List ReadRes) (o : Outcome DeErr Nat) :
    Runs step t (Format.deBigUint t) s cs o s' ↔
      ∃ x, Runs step t (BigUint.de t) s cs x s' ∧ o = thenConvert (fun b => .ok b.toNum) x := by
  rw [← runs_convert]
  have : Format.deBigUint t = (BigUint.de t).bind fun b => .done (.ok b.toNum) :=
    (bind_assoc_prog (De.deVecU8 t) (fun v => Prog.pure (BigUint.mk v))
      fun b => .done (.ok b.toNum)).symm
  rw [this]

/-- `format::big_int::deserialize` on any reader. -/
theorem C46_any_reader_big_int (t : Target) {σ : Type} (step : RStep σ) (s s' : σ)
    (cs : List ReadRes) (o : Outcome DeErr Int) :
    Runs step t (Format.deBigInt t) s cs o s' ↔
      ∃ x, Runs step t (BigInt.de t) s cs x s' ∧ o = thenConvert (fun b => .ok b.toNum) x := by
  rw [← runs_convert]
  have : Format.deBigInt t = (BigInt.de t).bind fun b => .done (.ok b.toNum) :=
    (bind_assoc_prog (De.deVecU8 t) (fun v => Prog.pure (BigInt.mk v))
      fun b => .done (.ok b.toNum)).symm
  rw [this]

/-- `format::date::deserialize` on any reader: a date that does not exist is an error. -/
theorem C46_any_reader_date (t : Target) (mode : BuildMode) {σ : Type} (step : RStep σ)
    (s s' : σ) (cs : List ReadRes) (o : Outcome DeErr Time.Date) :
    Runs step t (Format.deDate mode) s cs o s' ↔
      ∃ x, Runs step t (Date.de mode) s cs x s' ∧ o = thenConvert (fun d => match d.toTime with
        | some x => .ok x
        | none => .err (.message "invalid value: sequence, expected Read error")) x := by
  rw [← runs_convert]
  have : Format.deDate mode = (Date.de mode).bind fun d => .done (match d.toTime with
      | some x => .ok x
      | none => .err (.message "invalid value: sequence, expected Read error")) := by
    unfold Date.de Format.deDate
    refine Eq.trans ?_ (bind_assoc_prog _ _ _).symm
    congr 1
    funext y
    change (match addI32 mode y 2000 with | none => _ | some year => _) =
      Prog.bind (match addI32 mode y 2000 with | none => _ | some year => _) _
    cases addI32 mode y 2000 with
    | none => rfl
    | some year =>
      dsimp only
      refine Eq.trans ?_ (bind_assoc_prog _ _ _).symm
      congr 1
      funext o
      change (match addU16 mode o 1 with | none => _ | some year => _) =
        Prog.bind (match addU16 mode o 1 with | none => _ | some year => _) _
      cases addU16 mode o 1 with
      | none => rfl
      | some ordinal =>
        change _ = Prog.done _
        simp only [Date.toTime]
        cases Time.fromOrdinalDate year ordinal <;> rfl
  rw [this]

/-- `format::date_time::deserialize` on any reader: a timestamp out of range is an error, and
one that nanoseconds carry past the end of time a panic, where `TryInto` has them. -/
theorem C46_any_reader_date_time (t : Target) {σ : Type} (step : RStep σ)
    (s s' : σ) (cs : List ReadRes) (o : Outcome DeErr Time.OffsetDateTime) :
    Runs step t Format.deDateTime s cs o s' ↔
      ∃ x, Runs step t DateTime.de s cs x s' ∧ o = thenConvert (fun d => match d.toTime with
        | .ok x => .ok x
        | .err () => .err (.message "invalid value: sequence, expected Read error")
        | .panic q => .panic q) x := by
  rw [← runs_convert]
  have : Format.deDateTime = DateTime.de.bind fun d => .done (match d.toTime with
      | .ok x => .ok x
      | .err () => .err (.message "invalid value: sequence, expected Read error")
      | .panic q => .panic q) := by
    unfold DateTime.de Format.deDateTime
    refine Eq.trans ?_ (bind_assoc_prog _ _ _).symm
    congr 1
    funext y
    refine Eq.trans ?_ (bind_assoc_prog _ _ _).symm
    congr 1
    funext n
    change _ = Prog.done _
    simp only [DateTime.toTime]
    cases Time.fromUnixTimestamp y with
    | none => rfl
    | some v => cases h : Time.addNanos v n <;> simp [h] <;> rfl
  rw [this]

theorem serBigDecimal_ofNum (mode : BuildMode) (v : Num.Decimal) (b : BigDecimal)
    (h : BigDecimal.ofNum mode v = .ok b) : Format.serBigDecimal mode v = b.ser := by
  rw [Format.serBigDecimal, BigDecimal.ser]
  rw [BigDecimal.ofNum] at h
  split at h
  · cases h
    rw [if_pos ‹_›]
    rfl
  · rename_i hz
    rw [if_neg hz]
    split at h
    · cases h
    · rename_i n hn
      cases h
      simp only
      have hne : Num.toSignedBytesLe n.intVal ≠ [] := by
        rw [Num.toSignedBytesLe]
        intro hc
        have h1 : Num.toBytesLe n.intVal.natAbs ≠ [] := by
          rw [Num.toBytesLe]
          split
          · simp
          · exact Num.digits_ne_nil ‹_›
        have h2 : (if n.intVal < 0 then Num.twosComplement true _ else _) = ([] : List UInt8) := hc
        split at h2
        · have := congrArg List.length h2
          rw [Num.length_twosComplement] at this
          split at this
          · simp at this
          · exact h1 (List.length_eq_zero_iff.mp this)
        · split at h2
          · simp at h2
          · exact h1 h2
      rw [if_neg hne]

/-- On any writer: the same calls of `write` and the same outcome. -/
theorem C46_any_writer {σ : Type} (step : WStep σ) (s s' : σ) (cs : List WCall)
    (o : Outcome SerErr Unit) :
    (∀ n, WRuns step (Format.serBigUint n) s cs o s' ↔ WRuns step (BigUint.ofNum n).ser s cs o s') ∧
    (∀ x, WRuns step (Format.serBigInt x) s cs o s' ↔ WRuns step (BigInt.ofNum x).ser s cs o s') ∧
    (∀ mode v b, BigDecimal.ofNum mode v = .ok b →
      (WRuns step (Format.serBigDecimal mode v) s cs o s' ↔ WRuns step b.ser s cs o s')) ∧
    (∀ mode d, WRuns step (Format.serDate mode d) s cs o s' ↔
      WRuns step ((Date.ofTime d).ser mode) s cs o s') ∧
    (∀ d, WRuns step (Format.serDateTime d) s cs o s' ↔
      WRuns step (DateTime.ofTime d).ser s cs o s') :=
  ⟨fun n => by rw [Format.serBigUint_eq], fun n => by rw [Format.serBigInt_eq],
    fun mode v b h => by rw [serBigDecimal_ofNum mode v b h], fun mode d => Iff.rfl,
    fun d => Iff.rfl⟩

/-! ## The cases occur -/

/-- The last day of 2020 comes out of both; day 366 of 2021 is a newtype and no `time::Date`. -/
example : Prog.run ⟨.w64, 4096⟩ (Date.de .debug) (wireDate 20 365) = .ok (⟨2020, 366⟩, []) ∧
    Prog.run ⟨.w64, 4096⟩ (Format.deDate .debug) (wireDate 20 365) = .ok (⟨2020, 366⟩, []) ∧
    Prog.run ⟨.w64, 4096⟩ (Date.de .debug) (wireDate 21 365) = .ok (⟨2021, 366⟩, []) ∧
    Prog.run ⟨.w64, 4096⟩ (Format.deDate .debug) (wireDate 21 365)
      = .err (.message "invalid value: sequence, expected Read error") := by decide +kernel

end Dlhn.Props
