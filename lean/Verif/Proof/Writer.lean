import Verif.Model.Writer
/-! # Generic facts about encoders -/
namespace Dlhn

variable {ε : Type}

namespace WProg

theorem exec_andThen (p q : WProg ε) :
    (p.andThen q).exec = match p.exec with
      | (o, .ok ()) => (o ++ q.exec.1, q.exec.2)
      | (o, .err e) => (o, .err e)
      | (o, .panic x) => (o, .panic x) := by
  induction p with
  | done o => cases o <;> simp [andThen, exec]
  | writeAll bs f k ih =>
    simp only [andThen, exec, ih]
    rcases hk : k.exec with ⟨o, r⟩
    cases r <;> simp

theorem exec_andThen_ok {p : WProg ε} {o : List UInt8} (h : p.exec = (o, .ok ())) (q : WProg ε) :
    (p.andThen q).exec = (o ++ q.exec.1, q.exec.2) := by
  rw [exec_andThen, h]

@[simp] theorem exec_skip : (skip : WProg ε).exec = ([], .ok ()) := rfl

theorem andThen_ok_iff (p q : WProg ε) :
    (p.andThen q).exec.2 = .ok () ↔ p.exec.2 = .ok () ∧ q.exec.2 = .ok () := by
  rw [exec_andThen]
  rcases p.exec with ⟨o, r⟩
  cases r <;> simp

end WProg

/-- What `write_all` does on any writer: the sink gets a prefix of the buffer; it
is the whole buffer exactly if there is no error. -/
theorem WScript.writeAll_spec (bs : List UInt8) (s : WScript) :
    match WScript.writeAll bs s with
    | (out, none, _) => out = bs
    | (out, some _, _) => out <+: bs ∧ out ≠ bs := by
  induction s generalizing bs with
  | nil => simp [WScript.writeAll]
  | cons ev s ih =>
    simp only [WScript.writeAll]
    by_cases hb : bs = []
    · simp [hb]
    · simp only [hb, if_false]
      cases ev with
      | interrupted => exact ih bs
      | fail e => simp; exact fun h => hb h
      | accept n =>
        cases n with
        | zero => simp; exact fun h => hb h
        | succ n =>
          have := ih (bs.drop (n + 1))
          rcases hr : WScript.writeAll (bs.drop (n + 1)) s with ⟨out, e, s'⟩
          rw [hr] at this
          cases e with
          | none =>
            simp only [hr] at this ⊢
            rw [this, List.take_append_drop]
          | some e =>
            simp only [hr] at this ⊢
            constructor
            · conv => rhs; rw [← List.take_append_drop (n + 1) bs]
              exact (List.prefix_append_right_inj _).mpr this.1
            · intro h
              apply this.2
              have h2 := congrArg (List.drop (n + 1)) h
              rw [List.drop_append] at h2
              by_cases hle : n + 1 ≤ bs.length
              · rw [List.drop_of_length_le (by simp; omega), List.length_take, Nat.min_eq_left hle] at h2
                simpa using h2
              · have hd : bs.drop (n + 1) = [] := List.drop_of_length_le (by omega)
                rw [hd] at this ⊢
                exact List.prefix_nil.mp this.1

/-- A writer that never fails and never accepts nothing. -/
def WScript.Benign (s : WScript) : Prop :=
  ∀ ev ∈ s, ev = .interrupted ∨ ∃ n, ev = .accept (n + 1)

theorem WScript.writeAll_benign (bs : List UInt8) (s : WScript) (h : s.Benign) :
    ∃ s', WScript.writeAll bs s = (bs, none, s') ∧ WScript.Benign s' := by
  induction s generalizing bs with
  | nil => exact ⟨[], rfl, h⟩
  | cons ev s ih =>
    have hs : WScript.Benign s := fun e he => h e (List.mem_cons_of_mem _ he)
    simp only [WScript.writeAll]
    by_cases hb : bs = []
    · exact ⟨ev :: s, by simp [hb], h⟩
    · simp only [hb, if_false]
      rcases h ev List.mem_cons_self with rfl | ⟨n, rfl⟩
      · exact ih bs hs
      · obtain ⟨s', h1, h2⟩ := ih (bs.drop (n + 1)) hs
        exact ⟨s', by simp [h1], h2⟩

namespace WProg

/-- Every write maps an I/O error to `e`. -/
def Maps (e : IoErr → ε) : WProg ε → Prop
  | done _ => True
  | writeAll _ f k => (∀ x, f x = e x) ∧ Maps e k

theorem Maps.andThen {e : IoErr → ε} {p q : WProg ε} (hp : Maps e p) (hq : Maps e q) :
    Maps e (p.andThen q) := by
  induction p with
  | done o => cases o <;> first | exact hq | trivial
  | writeAll bs f k ih => exact ⟨hp.1, ih hp.2⟩

/-- On a benign writer an encoder writes and returns the same as on a `Vec`. -/
theorem runScript_benign (p : WProg ε) (s : WScript) (h : s.Benign) :
    p.runScript s = p.exec := by
  induction p generalizing s with
  | done o => rfl
  | writeAll bs f k ih =>
    obtain ⟨s', h1, h2⟩ := WScript.writeAll_benign bs s h
    simp only [runScript, h1, exec, ih s' h2]

/-- On any writer: either everything was accepted and the result is the same as
on a `Vec`, or the writer failed and the sink holds a strict prefix of what a
`Vec` would hold. -/
theorem runScript_prefix {e : IoErr → ε} {p : WProg ε} (hp : Maps e p) (s : WScript) :
    p.runScript s = p.exec ∨
    ((∃ x, (p.runScript s).2 = .err (e x)) ∧ (p.runScript s).1 <+: p.exec.1 ∧
      (p.runScript s).1 ≠ p.exec.1) := by
  induction p generalizing s with
  | done o => exact Or.inl rfl
  | writeAll bs f k ih =>
    have hw := WScript.writeAll_spec bs s
    rcases hr : WScript.writeAll bs s with ⟨out, err, s'⟩
    rw [hr] at hw
    simp only [runScript, hr, exec]
    cases err with
    | none =>
      simp only at hw ⊢
      subst hw
      rcases ih hp.2 s' with h | ⟨⟨x, h1⟩, h2, h3⟩
      · left; rw [h]
      · right
        refine ⟨⟨x, h1⟩, (List.prefix_append_right_inj _).mpr h2, ?_⟩
        intro h
        exact h3 (List.append_cancel_left h)
    | some x =>
      right
      simp only at hw ⊢
      refine ⟨⟨x, by rw [hp.1]⟩, ?_, ?_⟩
      · exact hw.1.trans (List.prefix_append _ _)
      · intro h
        apply hw.2
        have h1 := hw.1.length_le
        have h2 := congrArg List.length h
        simp only [List.length_append] at h2
        have : out.length = bs.length := by omega
        exact hw.1.eq_of_length this

/-- On a slice: what fits is written, and the outcome is that on a `Vec` exactly if
everything fits. -/
theorem runSlice_eq {e : IoErr → ε} {p : WProg ε} (hp : Maps e p) (room : Nat) :
    p.runSlice room = (p.exec.1.take room,
      if p.exec.1.length ≤ room then p.exec.2 else .err (e .writeZero)) := by
  induction p generalizing room with
  | done o => simp [runSlice, exec]
  | writeAll bs f k ih =>
    rw [runSlice, exec]
    by_cases h : bs.length ≤ room
    · rw [if_pos h, ih hp.2]
      simp only [List.length_append]
      rw [List.take_append, List.take_of_length_le h]
      congr 1
      by_cases h2 : k.exec.1.length ≤ room - bs.length
      · rw [if_pos h2, if_pos (by omega)]
      · rw [if_neg h2, if_neg (by omega)]
    · rw [if_neg h, hp.1]
      simp only [List.length_append]
      rw [if_neg (by omega), List.take_append_of_le_length (by omega)]

end WProg
end Dlhn
