import Verif.Model.Convert
import Verif.Proof.StdTypes
import Verif.Spec.Convert
/-! # Lemmas about types serialized through another type -/
namespace Dlhn

open De

/-- A run of two pieces of code in a row. -/
theorem Runs.bind_iff {σ ε α β : Type} {step : RStep σ} {t : Target} {p : Prog ε β}
    {k : β → Prog ε α} {s s' : σ} {cs : List ReadRes} {o : Outcome ε α} :
    Runs step t (Prog.bind p k) s cs o s' ↔
      (∃ b cs1 s1 cs2, cs = cs1 ++ cs2 ∧ Runs step t p s cs1 (.ok b) s1 ∧
        Runs step t (k b) s1 cs2 o s') ∨
      (∃ e, o = .err e ∧ Runs step t p s cs (.err e) s') ∨
      (∃ q, o = .panic q ∧ Runs step t p s cs (.panic q) s') := by
  induction p generalizing s cs with
  | done x =>
    rcases x with b | e | q
    · rw [Prog.bind]
      constructor
      · intro h
        exact .inl ⟨b, [], s, cs, rfl, .done _ _, h⟩
      · rintro (⟨b', cs1, s1, cs2, rfl, h1, h2⟩ | ⟨e, -, h⟩ | ⟨q, -, h⟩)
        · cases h1; exact h2
        · cases h
        · cases h
    · rw [Prog.bind]
      constructor
      · intro h
        cases h
        exact .inr (.inl ⟨e, rfl, .done _ _⟩)
      · rintro (⟨b', cs1, s1, cs2, rfl, h1, h2⟩ | ⟨e, rfl, h⟩ | ⟨q, -, h⟩)
        · cases h1
        · cases h; exact .done _ _
        · cases h
    · rw [Prog.bind]
      constructor
      · intro h
        cases h
        exact .inr (.inr ⟨q, rfl, .done _ _⟩)
      · rintro (⟨b', cs1, s1, cs2, rfl, h1, h2⟩ | ⟨e, rfl, h⟩ | ⟨q, rfl, h⟩)
        · cases h1
        · cases h
        · cases h; exact .done _ _
  | readExact n onErr kk ih =>
    rw [Prog.bind]
    constructor
    · intro h
      cases h with
      | readExact v h hk =>
        rcases (ih v).mp hk with ⟨b, cs1, s1, cs2, rfl, h1, h2⟩ | ⟨e, rfl, h1⟩ | ⟨q, rfl, h1⟩
        · exact .inl ⟨b, _, s1, cs2, (List.append_assoc _ _ _).symm, .readExact v h h1, h2⟩
        · exact .inr (.inl ⟨e, rfl, .readExact v h h1⟩)
        · exact .inr (.inr ⟨q, rfl, .readExact v h h1⟩)
      | readExactErr h => exact .inr (.inl ⟨_, rfl, .readExactErr h⟩)
    · rintro (⟨b, cs1, s1, cs2, rfl, h1, h2⟩ | ⟨e, rfl, h⟩ | ⟨q, rfl, h⟩)
      · cases h1 with
        | readExact v h hk =>
          rw [List.append_assoc]
          exact .readExact v h ((ih v).mpr (.inl ⟨b, _, s1, cs2, rfl, hk, h2⟩))
      · cases h with
        | readExact v h hk => exact .readExact v h ((ih v).mpr (.inr (.inl ⟨e, rfl, hk⟩)))
        | readExactErr h => exact .readExactErr h
      · cases h with
        | readExact v h hk => exact .readExact v h ((ih v).mpr (.inr (.inr ⟨q, rfl, hk⟩)))
  | takeToEnd n onErr kk ih =>
    rw [Prog.bind]
    constructor
    · intro h
      cases h with
      | takeToEnd h hk =>
        rcases (ih _).mp hk with ⟨b, cs1, s1, cs2, rfl, h1, h2⟩ | ⟨e, rfl, h1⟩ | ⟨q, rfl, h1⟩
        · exact .inl ⟨b, _, s1, cs2, (List.append_assoc _ _ _).symm, .takeToEnd h h1, h2⟩
        · exact .inr (.inl ⟨e, rfl, .takeToEnd h h1⟩)
        · exact .inr (.inr ⟨q, rfl, .takeToEnd h h1⟩)
      | takeToEndErr h => exact .inr (.inl ⟨_, rfl, .takeToEndErr h⟩)
    · rintro (⟨b, cs1, s1, cs2, rfl, h1, h2⟩ | ⟨e, rfl, h⟩ | ⟨q, rfl, h⟩)
      · cases h1 with
        | takeToEnd h hk =>
          rw [List.append_assoc]
          exact .takeToEnd h ((ih _).mpr (.inl ⟨b, _, s1, cs2, rfl, hk, h2⟩))
      · cases h with
        | takeToEnd h hk => exact .takeToEnd h ((ih _).mpr (.inr (.inl ⟨e, rfl, hk⟩)))
        | takeToEndErr h => exact .takeToEndErr h
      · cases h with
        | takeToEnd h hk => exact .takeToEnd h ((ih _).mpr (.inr (.inr ⟨q, rfl, hk⟩)))
  | alloc n kk ih =>
    rw [Prog.bind]
    constructor
    · intro h
      cases h with
      | alloc ha hk =>
        rcases ih.mp hk with ⟨b, cs1, s1, cs2, rfl, h1, h2⟩ | ⟨e, rfl, h1⟩ | ⟨q, rfl, h1⟩
        · exact .inl ⟨b, cs1, s1, cs2, rfl, .alloc ha h1, h2⟩
        · exact .inr (.inl ⟨e, rfl, .alloc ha h1⟩)
        · exact .inr (.inr ⟨q, rfl, .alloc ha h1⟩)
      | allocPanic ha => exact .inr (.inr ⟨_, rfl, .allocPanic ha⟩)
    · rintro (⟨b, cs1, s1, cs2, rfl, h1, h2⟩ | ⟨e, rfl, h⟩ | ⟨q, rfl, h⟩)
      · cases h1 with
        | alloc ha hk => exact .alloc ha (ih.mpr (.inl ⟨b, _, s1, cs2, rfl, hk, h2⟩))
      · cases h with
        | alloc ha hk => exact .alloc ha (ih.mpr (.inr (.inl ⟨e, rfl, hk⟩)))
      · cases h with
        | alloc ha hk => exact .alloc ha (ih.mpr (.inr (.inr ⟨q, rfl, hk⟩)))
        | allocPanic ha => exact .allocPanic ha

namespace Convert

theorem Runs.bind_ok {σ ε α β : Type} {step : RStep σ} {t : Target} {p : Prog ε β}
    {k : β → Prog ε α} {s s' : σ} {cs : List ReadRes} {a : α}
    (h : Runs step t (Prog.bind p k) s cs (.ok a) s') :
    ∃ b cs1 s1 cs2, Runs step t p s cs1 (.ok b) s1 ∧ Runs step t (k b) s1 cs2 (.ok a) s' := by
  rcases Runs.bind_iff.mp h with ⟨b, cs1, s1, cs2, -, h1, h2⟩ | ⟨e, h, -⟩ | ⟨q, h, -⟩
  · exact ⟨b, cs1, s1, cs2, h1, h2⟩
  · cases h
  · cases h

theorem Runs.done_ok {σ ε α : Type} {step : RStep σ} {t : Target} {s s' : σ} {cs : List ReadRes}
    {a b : α} (h : Runs step t (.done (.ok a) : Prog ε α) s cs (.ok b) s') : a = b := by
  cases h; rfl

theorem Runs.times {σ α : Type} {step : RStep σ} {t : Target} {p : Prog DeErr α} {P : α → Prop}
    (hp : ∀ s s' cs v, Runs step t p s cs (.ok v) s' → P v) (n : Nat) {s s' : σ}
    {cs : List ReadRes} {vs : List α} (h : Runs step t (De.times n p) s cs (.ok vs) s') :
    ∀ v ∈ vs, P v := by
  induction n generalizing s s' cs vs with
  | zero =>
    rw [De.times, Prog.pure_eq] at h
    cases h
    simp
  | succ n ih =>
    rw [De.times, Prog.bind_eq] at h
    obtain ⟨b, cs1, s1, cs2, h1, h⟩ := Runs.bind_ok h
    rw [Prog.bind_eq] at h
    obtain ⟨bs, cs3, s3, cs4, h2, h⟩ := Runs.bind_ok h
    cases Runs.done_ok h
    intro v hv
    rcases List.mem_cons.mp hv with rfl | hv
    · exact hp _ _ _ _ h1
    · exact ih h2 v hv

end Convert

end Dlhn
