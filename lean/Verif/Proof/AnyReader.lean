import Verif.Spec.AnyReader
import Verif.Proof.Targets
/-! # Facts about decoders on any reader -/
namespace Dlhn

variable {σ ε α : Type}

theorem handed_append (a b : List ReadRes) : handed (a ++ b) = handed a ++ handed b := by
  induction a with
  | nil => rfl
  | cons c a ih => cases c <;> simp [handed, ih]

/-- None of the answers ends the data. -/
def Running (cs : List ReadRes) : Prop := ∀ c ∈ cs, c.ends = none

/-- The last answer, and only that one, ends the data. -/
def Stopped (cs : List ReadRes) (x : Ending) : Prop :=
  ∃ cs0 c, cs = cs0 ++ [c] ∧ Running cs0 ∧ c.ends = some x

theorem Running.cons {c : ReadRes} {cs : List ReadRes} (h : c.ends = none) (hs : Running cs) :
    Running (c :: cs) := by
  intro d hd
  rcases List.mem_cons.mp hd with rfl | hd
  · exact h
  · exact hs d hd

theorem Running.append {a b : List ReadRes} (ha : Running a) (hb : Running b) :
    Running (a ++ b) := by
  intro d hd
  rcases List.mem_append.mp hd with hd | hd
  · exact ha d hd
  · exact hb d hd

theorem Stopped.cons {c : ReadRes} {cs : List ReadRes} {x : Ending} (h : c.ends = none)
    (hs : Stopped cs x) : Stopped (c :: cs) x := by
  obtain ⟨cs0, d, rfl, h1, h2⟩ := hs
  exact ⟨c :: cs0, d, rfl, h1.cons h, h2⟩

theorem Stopped.append {a b : List ReadRes} {x : Ending} (ha : Running a) (hb : Stopped b x) :
    Stopped (a ++ b) x := by
  obtain ⟨cs0, d, rfl, h1, h2⟩ := hb
  exact ⟨a ++ cs0, d, by simp, ha.append h1, h2⟩

theorem ends_ok {bs : List UInt8} (h : bs ≠ []) : (ReadRes.ok bs).ends = none := by
  cases bs with
  | nil => exact absurd rfl h
  | cons => rfl

/-- The bytes handed over before the first end of file or failure. -/
def before : List ReadRes → List UInt8
  | [] => []
  | c :: cs => if c.ends = none then handed [c] ++ before cs else []

theorem before_running {cs : List ReadRes} (h : Running cs) (ds : List ReadRes) :
    before (cs ++ ds) = handed cs ++ before ds := by
  induction cs with
  | nil => rfl
  | cons c cs ih =>
    rw [List.cons_append, before, if_pos (h c (by simp)),
      ih fun c hc => h c (List.mem_cons_of_mem _ hc)]
    cases c <;> simp [handed]

theorem before_stopped {cs : List ReadRes} {x : Ending} (h : Stopped cs x) (ds : List ReadRes) :
    before (cs ++ ds) = handed cs := by
  obtain ⟨cs0, c, rfl, h1, h2⟩ := h
  rw [List.append_assoc, before_running h1, handed_append]
  congr 1
  rw [List.cons_append, before, h2]
  cases c with
  | ok bs => cases bs <;> simp_all [ReadRes.ends, handed]
  | interrupted => simp [ReadRes.ends] at h2
  | fail e => simp [handed]

theorem before_of_running {cs : List ReadRes} (h : Running cs) : before cs = handed cs := by
  have := before_running h []
  simpa [before] using this

theorem before_of_stopped {cs : List ReadRes} {x : Ending} (h : Stopped cs x) :
    before cs = handed cs := by
  have := before_stopped h []
  simpa using this

theorem before_prefix (cs : List ReadRes) : before cs <+: handed cs := by
  induction cs with
  | nil => exact List.prefix_refl _
  | cons c cs ih =>
    rw [before]
    split
    · have : handed (c :: cs) = handed [c] ++ handed cs := handed_append [c] cs
      rw [this]
      exact (List.prefix_append_right_inj _).mpr ih
    · exact List.nil_prefix

theorem ReadsExact.spec {step : RStep σ} (hl : step.Lawful) {n : Nat} {acc : List UInt8} {s s' : σ}
    {cs : List ReadRes} {r : Except IoErr (List UInt8)} (h : ReadsExact step n acc s cs r s') :
    (Running cs ∧ r = .ok (acc ++ handed cs) ∧ (handed cs).length = n) ∨
    (∃ x, Stopped cs x ∧ r = .error x.shortErr ∧ (handed cs).length < n) := by
  induction h with
  | full acc s => exact .inl ⟨by simp [Running], by simp [handed], rfl⟩
  | eof hn h => exact .inr ⟨.eof, ⟨[], _, rfl, by simp [Running], rfl⟩, rfl, by simpa [handed]⟩
  | more hn h hb hr ih =>
    have := hl _ _ _ _ h
    rcases ih with ⟨h1, h2, h3⟩ | ⟨x, h1, h2, h3⟩
    · exact .inl ⟨h1.cons (ends_ok hb), by simpa [handed] using h2, by simp [handed, h3]; omega⟩
    · exact .inr ⟨x, h1.cons (ends_ok hb), h2, by simp [handed]; omega⟩
  | interrupted hn h hr ih =>
    rcases ih with ⟨h1, h2, h3⟩ | ⟨x, h1, h2, h3⟩
    · exact .inl ⟨h1.cons rfl, h2, h3⟩
    · exact .inr ⟨x, h1.cons rfl, h2, h3⟩
  | fail hn h =>
    exact .inr ⟨.fail _, ⟨[], _, rfl, by simp [Running], rfl⟩, rfl, by simpa [handed]⟩

theorem ReadsToEnd.spec {step : RStep σ} (hl : step.Lawful) {n : Nat} {acc : List UInt8} {s s' : σ}
    {cs : List ReadRes} {r : Except IoErr (List UInt8)} (h : ReadsToEnd step n acc s cs r s') :
    (Running cs ∧ r = .ok (acc ++ handed cs) ∧ (handed cs).length = n) ∨
    (Stopped cs .eof ∧ r = .ok (acc ++ handed cs) ∧ (handed cs).length < n) ∨
    (∃ e, Stopped cs (.fail e) ∧ r = .error e ∧ (handed cs).length < n) := by
  induction h with
  | full acc s => exact .inl ⟨by simp [Running], by simp [handed], rfl⟩
  | eof hn hm h =>
    exact .inr (.inl ⟨⟨[], _, rfl, by simp [Running], rfl⟩, by simp [handed], by simpa [handed]⟩)
  | more hn hm h hb hr ih =>
    have := hl _ _ _ _ h
    rcases ih with ⟨h1, h2, h3⟩ | ⟨h1, h2, h3⟩ | ⟨x, h1, h2, h3⟩
    · exact .inl ⟨h1.cons (ends_ok hb), by simpa [handed] using h2, by simp [handed, h3]; omega⟩
    · exact .inr (.inl ⟨h1.cons (ends_ok hb), by simpa [handed] using h2, by simp [handed]; omega⟩)
    · exact .inr (.inr ⟨x, h1.cons (ends_ok hb), h2, by simp [handed]; omega⟩)
  | interrupted hn hm h hr ih =>
    rcases ih with ⟨h1, h2, h3⟩ | ⟨h1, h2, h3⟩ | ⟨x, h1, h2, h3⟩
    · exact .inl ⟨h1.cons rfl, h2, h3⟩
    · exact .inr (.inl ⟨h1.cons rfl, h2, h3⟩)
    · exact .inr (.inr ⟨x, h1.cons rfl, h2, h3⟩)
  | fail hn hm h =>
    exact .inr (.inr ⟨_, ⟨[], _, rfl, by simp [Running], rfl⟩, rfl, by simpa [handed]⟩)

theorem Running.not_stopped {cs ds : List ReadRes} {x : Ending} (h : Running (cs ++ ds))
    (hs : Stopped cs x) : False := by
  obtain ⟨cs0, d, rfl, h1, h2⟩ := hs
  rw [h d (by simp)] at h2
  cases h2

theorem Running.left {cs ds : List ReadRes} (h : Running (cs ++ ds)) : Running cs :=
  fun c hc => h c (List.mem_append_left _ hc)

theorem Running.right {cs ds : List ReadRes} (h : Running (cs ++ ds)) : Running ds :=
  fun c hc => h c (List.mem_append_right _ hc)

theorem takeVec_append {n : Nat} (v : Vector UInt8 n) (more : List UInt8)
    (h : n ≤ (v.toList ++ more).length) : takeVec (v.toList ++ more) h = v := by
  apply Vector.toArray_inj.mp
  simp only [takeVec]
  rw [List.take_append_of_le_length (by simp), List.take_of_length_le (by simp)]
  simp [Vector.toList]

/-- A run in which the reader did not end depends only on the bytes handed over. -/
theorem Runs.complete {step : RStep σ} (hl : step.Lawful) {t : Target} {p : Prog ε α} {s s' : σ}
    {cs : List ReadRes} {o : Outcome ε α} (h : Runs step t p s cs o s') (hr : Running cs)
    (more : List UInt8) : p.complete t (handed cs ++ more) = some (o, more) := by
  induction h with
  | done o s => rfl
  | @readExact n onErr k s s' s'' cs cs' o v h hk ih =>
    rcases h.spec hl with ⟨h1, h2, h3⟩ | ⟨x, -, h2, -⟩
    · simp only [List.nil_append, Except.ok.injEq] at h2
      have hn : n ≤ (handed (cs ++ cs') ++ more).length := by
        rw [handed_append]; simp; omega
      rw [Prog.complete, dif_pos hn]
      have e1 : handed (cs ++ cs') ++ more = v.toList ++ (handed cs' ++ more) := by
        rw [handed_append, h2, List.append_assoc]
      have e2 : takeVec (handed (cs ++ cs') ++ more) hn = v := by
        simp only [e1]; exact takeVec_append v _ _
      rw [e2, e1, List.drop_append_of_le_length (by simp), List.drop_of_length_le (by simp)]
      simpa using ih hr.right
    · cases h2
  | readExactErr h =>
    rcases h.spec hl with ⟨-, h2, -⟩ | ⟨x, h1, -, -⟩
    · cases h2
    · exact (Running.not_stopped (ds := []) (by simpa using hr) h1).elim
  | @takeToEnd n onErr k s s' s'' cs cs' o bs h hk ih =>
    rcases h.spec hl with ⟨h1, h2, h3⟩ | ⟨h1, -, -⟩ | ⟨x, -, h2, -⟩
    · simp only [List.nil_append, Except.ok.injEq] at h2
      subst h2
      rw [Prog.complete, if_pos (by rw [handed_append]; simp; omega), handed_append,
        List.append_assoc, List.take_append_of_le_length (by omega),
        List.take_of_length_le (by omega), List.drop_append_of_le_length (by omega),
        List.drop_of_length_le (by omega), List.nil_append]
      exact ih hr.right
    · exact (hr.not_stopped h1).elim
    · cases h2
  | takeToEndErr h =>
    rcases h.spec hl with ⟨-, h2, -⟩ | ⟨-, h2, -⟩ | ⟨x, h1, -, -⟩
    · cases h2
    · cases h2
    · exact (Running.not_stopped (ds := []) (by simpa using hr) h1).elim
  | alloc ha hk ih => rw [Prog.complete, ha]; exact ih hr
  | allocPanic ha => simp [Prog.complete, ha, handed]

/-- A run in which the reader ended stops right there, with the error for missing data. -/
theorem Runs.stopped {step : RStep σ} (hl : step.Lawful) {e : IoErr → ε} {t : Target}
    {p : Prog ε α} {s s' : σ} {cs : List ReadRes} {o : Outcome ε α} (h : Runs step t p s cs o s')
    (hp : Prog.Strict e p ∨ Prog.Tame e p ∧ Prog.Promising t p (before cs)) :
    Running cs ∨ ∃ x, Stopped cs x ∧ o = .err (e x.shortErr) ∧ p.complete t (handed cs) = none := by
  have ht : Prog.Tame e p := hp.elim Prog.Strict.tame (·.1)
  induction h with
  | done o s => exact .inl (by simp [Running])
  | @readExact n onErr k s s' s'' cs cs' o v h hk ih =>
    rcases h.spec hl with ⟨h1, h2, h3⟩ | ⟨x, -, h2, -⟩
    · simp only [List.nil_append, Except.ok.injEq] at h2
      have hn : n ≤ (handed (cs ++ cs')).length := by
        rw [handed_append]; simp; omega
      have e1 : handed (cs ++ cs') = v.toList ++ handed cs' := by
        rw [handed_append, h2]
      have e2 : takeVec (handed (cs ++ cs')) hn = v := by
        simp only [e1]; exact takeVec_append v _ _
      have e3 : (handed (cs ++ cs')).drop n = handed cs' := by
        rw [e1, List.drop_append_of_le_length (by simp), List.drop_of_length_le (by simp)]; simp
      have f0 := before_running h1 cs'
      have fn : n ≤ (before (cs ++ cs')).length := by rw [f0]; simp; omega
      have f1 : before (cs ++ cs') = v.toList ++ before cs' := by rw [f0, h2]
      have f2 : takeVec (before (cs ++ cs')) fn = v := by
        simp only [f1]; exact takeVec_append v _ _
      have f3 : (before (cs ++ cs')).drop n = before cs' := by
        rw [f1, List.drop_append_of_le_length (by simp), List.drop_of_length_le (by simp)]; simp
      rcases ih (hp.imp (fun h => h.2 v) fun h => ⟨h.1.2 v, by
          have := h.2.readExact fn; rwa [f2, f3] at this⟩) (ht.2 v) with i | ⟨x, i1, i2, i3⟩
      · exact .inl (h1.append i)
      · refine .inr ⟨x, i1.append h1, i2, ?_⟩
        rw [Prog.complete, dif_pos hn, e2, e3]; exact i3
    · cases h2
  | readExactErr h =>
    rcases h.spec hl with ⟨-, h2, -⟩ | ⟨x, h1, h2, h3⟩
    · cases h2
    · simp only [Except.error.injEq] at h2
      subst h2
      exact .inr ⟨x, h1, by rw [ht.1], by rw [Prog.complete, dif_neg (by omega)]⟩
  | @takeToEnd n onErr k s s' s'' cs cs' o bs h hk ih =>
    rcases h.spec hl with ⟨h1, h2, h3⟩ | ⟨h1, h2, h3⟩ | ⟨x, -, h2, -⟩
    · simp only [List.nil_append, Except.ok.injEq] at h2
      have hn : n ≤ (handed (cs ++ cs')).length := by
        rw [handed_append]; simp; omega
      have e2 : (handed (cs ++ cs')).take n = bs := by
        rw [handed_append, List.take_append_of_le_length (by omega),
          List.take_of_length_le (by omega), h2]
      have e3 : (handed (cs ++ cs')).drop n = handed cs' := by
        rw [handed_append, List.drop_append_of_le_length (by omega),
          List.drop_of_length_le (by omega)]; simp
      have f0 := before_running h1 cs'
      have fn : n ≤ (before (cs ++ cs')).length := by rw [f0]; simp; omega
      have f2 : (before (cs ++ cs')).take n = bs := by
        rw [f0, List.take_append_of_le_length (by omega), List.take_of_length_le (by omega), h2]
      have f3 : (before (cs ++ cs')).drop n = before cs' := by
        rw [f0, List.drop_append_of_le_length (by omega), List.drop_of_length_le (by omega)]; simp
      rcases ih (hp.imp (fun h => h.2.2 bs) fun h => ⟨h.1.2.2 bs, by
          have := h.2.takeToEnd fn; rwa [f2, f3] at this⟩) (ht.2.2 bs) with i | ⟨x, i1, i2, i3⟩
      · exact .inl (h1.append i)
      · refine .inr ⟨x, i1.append h1, i2, ?_⟩
        rw [Prog.complete, if_pos hn, e2, e3]; exact i3
    · simp only [List.nil_append, Except.ok.injEq] at h2
      have hk' : k bs = .done (.err (e .unexpectedEof)) := by
        rcases hp with hp | hp
        · exact hp.2.1 bs (by rw [h2]; exact h3)
        · exact hp.2.short hp.1 bs (by rw [h2]; exact h3)
      rw [hk'] at hk
      cases hk
      refine .inr ⟨.eof, by simpa using h1, rfl, ?_⟩
      rw [Prog.complete, if_neg (by simp; omega)]
    · cases h2
  | takeToEndErr h =>
    rcases h.spec hl with ⟨-, h2, -⟩ | ⟨-, h2, -⟩ | ⟨x, h1, h2, h3⟩
    · cases h2
    · cases h2
    · simp only [Except.error.injEq] at h2
      subst h2
      exact .inr ⟨.fail _, h1, by rw [ht.1]; rfl, by rw [Prog.complete, if_neg (by omega)]⟩
  | @alloc n k s s' cs o ha hk ih =>
    rcases ih (hp.imp (fun h => h) fun h => ⟨h.1, h.2.alloc.2⟩) ht with i | ⟨x, i1, i2, i3⟩
    · exact .inl i
    · exact .inr ⟨x, i1, i2, by rw [Prog.complete, ha]; exact i3⟩
  | allocPanic ha => exact .inl (by simp [Running])

theorem Prog.run_complete {t : Target} {p : Prog ε α} {bs rest : List UInt8} {o : Outcome ε α}
    (h : p.complete t bs = some (o, rest)) : Prog.run t p bs = o.map (fun v => (v, rest)) := by
  rw [Prog.run]
  induction p generalizing bs with
  | done o' =>
    simp only [Prog.complete, Option.some.injEq, Prod.mk.injEq] at h
    obtain ⟨rfl, rfl⟩ := h
    cases o' <;> rfl
  | readExact n onErr k ih =>
    rw [Prog.complete] at h
    rw [Prog.exec]
    split at h
    · rename_i hn; rw [dif_pos hn]; exact ih _ h
    · simp at h
  | takeToEnd n onErr k ih =>
    rw [Prog.complete] at h
    rw [Prog.exec]
    split at h
    · rename_i hn; rw [if_pos hn]; exact ih _ h
    · simp at h
  | alloc n k ih =>
    rw [Prog.complete] at h
    rw [Prog.exec]
    cases ha : t.allocate n with
    | some q =>
      rw [ha] at h
      simp only [Option.some.injEq, Prod.mk.injEq] at h
      rw [← h.1]; rfl
    | none => rw [ha] at h; exact ih h

theorem Prog.run_incomplete {e : IoErr → ε} {t : Target} {p : Prog ε α} (hp : Strict e p)
    {bs : List UInt8} (h : p.complete t bs = none) :
    Prog.run t p bs = .err (e .unexpectedEof) := by
  rw [Prog.execAt_fst, Prog.complete_execAt t hp, h]
  rfl

theorem Stopped.last {cs : List ReadRes} {x : Ending} (h : Stopped cs x) :
    ∃ c, cs.getLast? = some c ∧ c.ends = some x := by
  obtain ⟨cs0, c, rfl, -, h2⟩ := h
  exact ⟨c, by simp, h2⟩

theorem Runs.explained {step : RStep σ} (hl : step.Lawful) {t : Target} {p : Prog DeErr α}
    (hp : Prog.Strict De.orRead p) {s s' : σ} {cs : List ReadRes} {o : Outcome DeErr α}
    (h : Runs step t p s cs o s') : Explained t p cs o := by
  rcases h.stopped hl (.inl hp) with hr | ⟨x, h1, h2, h3⟩
  · have hc := fun more => Prog.run_complete (h.complete hl hr more)
    exact ⟨by simpa using hc [], .inl hc⟩
  · obtain ⟨c, h4, h5⟩ := h1.last
    refine ⟨?_, .inr ⟨h2, c, h4, by rw [h5]; simp⟩⟩
    rw [Prog.run_incomplete hp h3, h2]; rfl

/-- Bytes that were written, or a beginning of them, are recognised. -/
theorem Runs.written {step : RStep σ} (hl : step.Lawful) {t : Target} {p : Prog DeErr α}
    (hp : Prog.Tame De.orRead p) {enc rest : List UInt8} {v : α}
    (hc : p.complete t (enc ++ rest) = some (.ok v, rest)) {s s' : σ} {cs : List ReadRes}
    {o : Outcome DeErr α} (h : Runs step t p s cs o s') (hh : before cs <+: enc ++ rest) :
    (o = .ok v ∧ handed cs = enc ∧ Running cs) ∨
    (o = .err .read ∧ handed cs <+: enc ∧ handed cs ≠ enc ∧ ∃ x, Stopped cs x) := by
  obtain ⟨more, hm⟩ := hh
  rcases h.stopped hl (.inr ⟨hp, more, v, rest, by rw [hm]; exact hc⟩) with hr | ⟨x, h1, h2, h3⟩
  · rw [before_of_running hr] at hm
    have h4 := h.complete hl hr more
    rw [hm, hc] at h4
    simp only [Option.some.injEq, Prod.mk.injEq] at h4
    refine .inl ⟨h4.1.symm, ?_, hr⟩
    rw [h4.2] at hm
    exact List.append_cancel_right hm
  · rw [before_of_stopped h1] at hm
    obtain ⟨used, e1, e2, -⟩ := Prog.complete_split t hc
    have he := List.append_cancel_right e1
    subst he
    have hno : ¬ enc <+: handed cs := by
      rintro ⟨r, hr⟩
      rw [← hr, e2 r] at h3
      cases h3
    refine .inr ⟨h2, ?_, fun hx => hno (by rw [hx]; exact List.prefix_refl _), x, h1⟩
    rcases List.prefix_or_prefix_of_prefix (⟨more, hm⟩ : handed cs <+: enc ++ rest)
      (List.prefix_append enc rest) with h | h
    · exact h
    · exact (hno h).elim

theorem ReadsExact.answers {step : RStep σ} {n : Nat} {acc : List UInt8} {s s' : σ}
    {cs : List ReadRes} {r : Except IoErr (List UInt8)} (h : ReadsExact step n acc s cs r s') :
    ∀ c ∈ cs, ∃ s m s', 0 < m ∧ step s m c s' := by
  induction h with
  | full acc s => simp
  | eof hn h => exact List.forall_mem_cons.mpr ⟨⟨_, _, _, hn, h⟩, by simp⟩
  | more hn h hb hr ih => exact List.forall_mem_cons.mpr ⟨⟨_, _, _, hn, h⟩, ih⟩
  | interrupted hn h hr ih => exact List.forall_mem_cons.mpr ⟨⟨_, _, _, hn, h⟩, ih⟩
  | fail hn h => exact List.forall_mem_cons.mpr ⟨⟨_, _, _, hn, h⟩, by simp⟩

theorem ReadsToEnd.answers {step : RStep σ} {n : Nat} {acc : List UInt8} {s s' : σ}
    {cs : List ReadRes} {r : Except IoErr (List UInt8)} (h : ReadsToEnd step n acc s cs r s') :
    ∀ c ∈ cs, ∃ s m s', 0 < m ∧ step s m c s' := by
  induction h with
  | full acc s => simp
  | eof hn hm h => exact List.forall_mem_cons.mpr ⟨⟨_, min _ _, _, by omega, h⟩, by simp⟩
  | more hn hm h hb hr ih => exact List.forall_mem_cons.mpr ⟨⟨_, min _ _, _, by omega, h⟩, ih⟩
  | interrupted hn hm h hr ih => exact List.forall_mem_cons.mpr ⟨⟨_, min _ _, _, by omega, h⟩, ih⟩
  | fail hn hm h => exact List.forall_mem_cons.mpr ⟨⟨_, min _ _, _, by omega, h⟩, by simp⟩

theorem Runs.answers {step : RStep σ} {t : Target} {p : Prog ε α} {s s' : σ} {cs : List ReadRes}
    {o : Outcome ε α} (h : Runs step t p s cs o s') : ∀ c ∈ cs, ∃ s m s', 0 < m ∧ step s m c s' := by
  induction h with
  | done o s => simp
  | readExact v h hk ih =>
    intro c hc
    rcases List.mem_append.mp hc with hc | hc
    · exact h.answers c hc
    · exact ih c hc
  | readExactErr h => exact h.answers
  | takeToEnd h hk ih =>
    intro c hc
    rcases List.mem_append.mp hc with hc | hc
    · exact h.answers c hc
    · exact ih c hc
  | takeToEndErr h => exact h.answers
  | alloc ha hk ih => exact ih
  | allocPanic ha => simp

/-! ## Scripts are as good as any reader -/

theorem Script.readExactAt_step {n : Nat} (hn : 0 < n) (acc : List UInt8) {s : Script}
    (hs : s ≠ []) : Script.readExactAt n acc s = match Script.read n s with
      | (.ok bs, s') => if bs = [] then (.error .unexpectedEof, s')
          else Script.readExactAt (n - bs.length) (acc ++ bs) s'
      | (.interrupted, s') => Script.readExactAt n acc s'
      | (.fail e, s') => (.error e, s') := by
  rw [Script.readExactAt, dif_neg (by omega), dif_neg hs]
  split <;> rename_i h <;> simp only [h]

theorem Script.takeToEndAt_step {n : Nat} (hn : 0 < n) (size : Nat → Nat) (i : Nat)
    (acc : List UInt8) {s : Script} (hs : s ≠ []) :
    Script.takeToEndAt size i n acc s = match Script.read (min n (size i + 1)) s with
      | (.ok bs, s') => if bs = [] then (.ok acc, s')
          else Script.takeToEndAt size (i + 1) (n - bs.length) (acc ++ bs) s'
      | (.interrupted, s') => Script.takeToEndAt size (i + 1) n acc s'
      | (.fail e, s') => (.error e, s') := by
  rw [Script.takeToEndAt, dif_neg (by omega), dif_neg hs]
  split <;> rename_i h <;> simp only [h]

theorem ReadRes.read_event {n : Nat} {bs : List UInt8} (h : bs.length ≤ n) (s : Script) :
    Script.read n (ReadRes.event (.ok bs) :: s) = (.ok bs, s) := by
  rw [ReadRes.event, Script.read, if_pos h]

theorem ReadsExact.replay {step : RStep σ} (hl : step.Lawful) {n : Nat} {acc : List UInt8}
    {s s' : σ} {cs : List ReadRes} {r : Except IoErr (List UInt8)}
    (h : ReadsExact step n acc s cs r s') (tail : Script) :
    Script.readExactAt n acc (cs.map ReadRes.event ++ tail) = (r, tail) := by
  induction h with
  | full acc s => rw [Script.readExactAt]; simp
  | eof hn h =>
    rw [Script.readExactAt_step hn _ (by simp), List.map_cons, List.cons_append,
      ReadRes.read_event (by simp)]
    simp
  | more hn h hb hr ih =>
    rw [Script.readExactAt_step hn _ (by simp), List.map_cons, List.cons_append,
      ReadRes.read_event (hl _ _ _ _ h)]
    simp only [hb, if_false]
    exact ih
  | interrupted hn h hr ih =>
    rw [Script.readExactAt_step hn _ (by simp)]
    exact ih
  | fail hn h =>
    rw [Script.readExactAt_step hn _ (by simp)]
    rfl

theorem ReadsToEnd.replay {step : RStep σ} (hl : step.Lawful) {n : Nat} {acc : List UInt8}
    {s s' : σ} {cs : List ReadRes} {r : Except IoErr (List UInt8)}
    (h : ReadsToEnd step n acc s cs r s') (size : Nat → Nat) (i : Nat)
    (hsz : ∀ i, (handed cs).length ≤ size i + 1) (tail : Script) :
    Script.takeToEndAt size i n acc (cs.map ReadRes.event ++ tail) = (r, tail) := by
  induction h generalizing i with
  | full acc s => rw [Script.takeToEndAt]; simp
  | eof hn hm h =>
    rw [Script.takeToEndAt_step hn _ _ _ (by simp), List.map_cons, List.cons_append,
      ReadRes.read_event (by simp)]
    simp
  | more hn hm h hb hr ih =>
    have h1 := hl _ _ _ _ h
    have h3 := hsz i
    simp only [handed, List.length_append] at h3
    rw [Script.takeToEndAt_step hn _ _ _ (by simp), List.map_cons, List.cons_append,
      ReadRes.read_event (by omega)]
    simp only [hb, if_false]
    exact ih (i + 1) fun i => Nat.le_trans (by simp [handed]) (hsz i)
  | interrupted hn hm h hr ih =>
    rw [Script.takeToEndAt_step hn _ _ _ (by simp)]
    exact ih (i + 1) hsz
  | fail hn hm h =>
    rw [Script.takeToEndAt_step hn _ _ _ (by simp)]
    rfl

theorem Runs.replay {step : RStep σ} (hl : step.Lawful) {t : Target} {p : Prog ε α} {s s' : σ}
    {cs : List ReadRes} {o : Outcome ε α} (h : Runs step t p s cs o s') (size : Nat → Nat)
    (hsz : ∀ i, (handed cs).length ≤ size i + 1) (tail : Script) :
    p.runScriptAt t size (cs.map ReadRes.event ++ tail) = (o, tail) := by
  induction h with
  | done o s => rfl
  | @readExact n onErr k s s' s'' cs cs' o v h hk ih =>
    rw [handed_append] at hsz
    simp only [List.length_append] at hsz
    rw [List.map_append, List.append_assoc, Prog.runScriptAt, h.replay hl]
    have hv : n = v.toList.length := by simp
    simp only [dif_pos hv]
    have key : ∀ (m : Nat) (l : List UInt8) (h : m = l.length),
        (h ▸ (⟨l.toArray, rfl⟩ : Vector UInt8 l.length) : Vector UInt8 m).toArray
          = l.toArray := by
      intro m l h; subst h; rfl
    have e : (hv ▸ ⟨v.toList.toArray, rfl⟩ : Vector UInt8 n) = v := by
      apply Vector.toArray_inj.mp
      rw [key _ _ hv]
      simp [Vector.toList]
    rw [e]
    exact ih fun i => by have := hsz i; omega
  | readExactErr h => rw [Prog.runScriptAt, h.replay hl]
  | takeToEnd h hk ih =>
    rw [handed_append] at hsz
    simp only [List.length_append] at hsz
    rw [List.map_append, List.append_assoc, Prog.runScriptAt,
      h.replay hl size 0 fun i => by have := hsz i; omega]
    exact ih fun i => by have := hsz i; omega
  | takeToEndErr h => rw [Prog.runScriptAt, h.replay hl size 0 hsz]
  | alloc ha hk ih => rw [Prog.runScriptAt, ha]; exact ih hsz
  | allocPanic ha => simp [Prog.runScriptAt, ha]

/-! ## Runs end -/

theorem ReadsExact.exists {step : RStep σ} (hv : step.Live) (n : Nat)
    (acc : List UInt8) (s : σ) : ∃ cs r s', ReadsExact step n acc s cs r s' := by
  obtain ⟨w, hw⟩ := hv.calm
  induction h : n using Nat.strongRecOn generalizing n acc s with
  | _ n' ihn =>
    subst h
    induction h : w s using Nat.strongRecOn generalizing acc s with
    | _ w' ihw =>
      subst h
      by_cases hn : n = 0
      · subst hn; exact ⟨_, _, _, .full acc s⟩
      · have hn : 0 < n := by omega
        obtain ⟨r, s', hs⟩ := hv.answers s n hn
        cases r with
        | ok bs =>
          by_cases hb : bs = []
          · subst hb; exact ⟨_, _, _, .eof hn hs⟩
          · have : 0 < bs.length := List.length_pos_iff.mpr hb
            obtain ⟨cs, r, s'', h⟩ := ihn (n - bs.length) (by omega) (n - bs.length) (acc ++ bs) s' rfl
            exact ⟨_, _, _, .more hn hs hb h⟩
        | interrupted =>
          obtain ⟨cs, r, s'', h⟩ := ihw _ (hw _ _ _ hs) acc s' rfl
          exact ⟨_, _, _, .interrupted hn hs h⟩
        | fail e => exact ⟨_, _, _, .fail hn hs⟩

theorem ReadsToEnd.exists {step : RStep σ} (hv : step.Live) (n : Nat)
    (acc : List UInt8) (s : σ) : ∃ cs r s', ReadsToEnd step n acc s cs r s' := by
  obtain ⟨w, hw⟩ := hv.calm
  induction h : n using Nat.strongRecOn generalizing n acc s with
  | _ n' ihn =>
    subst h
    induction h : w s using Nat.strongRecOn generalizing acc s with
    | _ w' ihw =>
      subst h
      by_cases hn : n = 0
      · subst hn; exact ⟨_, _, _, .full acc s⟩
      · have hn : 0 < n := by omega
        obtain ⟨r, s', hs⟩ := hv.answers s (min n n) (by omega)
        cases r with
        | ok bs =>
          by_cases hb : bs = []
          · subst hb; exact ⟨_, _, _, .eof hn hn hs⟩
          · have : 0 < bs.length := List.length_pos_iff.mpr hb
            obtain ⟨cs, r, s'', h⟩ := ihn (n - bs.length) (by omega) (n - bs.length) (acc ++ bs) s' rfl
            exact ⟨_, _, _, .more hn hn hs hb h⟩
        | interrupted =>
          obtain ⟨cs, r, s'', h⟩ := ihw _ (hw _ _ _ hs) acc s' rfl
          exact ⟨_, _, _, .interrupted hn hn hs h⟩
        | fail e => exact ⟨_, _, _, .fail hn hn hs⟩

theorem Runs.exists {step : RStep σ} (hl : step.Lawful) (hv : step.Live) (t : Target)
    (p : Prog ε α) (s : σ) : ∃ cs o s', Runs step t p s cs o s' := by
  induction p generalizing s with
  | done o => exact ⟨_, _, _, .done o s⟩
  | readExact n onErr k ih =>
    obtain ⟨cs, r, s', h⟩ := ReadsExact.exists hv n [] s
    cases r with
    | error e => exact ⟨_, _, _, .readExactErr h⟩
    | ok bs =>
      have hb : bs.length = n := by
        rcases h.spec hl with ⟨-, h2, h3⟩ | ⟨x, -, h2, -⟩
        · simp only [List.nil_append, Except.ok.injEq] at h2
          rw [h2, h3]
        · cases h2
      have hv' : (⟨bs.toArray, by simpa using hb⟩ : Vector UInt8 n).toList = bs := by
        simp [Vector.toList]
      obtain ⟨cs', o, s'', h'⟩ := ih ⟨bs.toArray, by simpa using hb⟩ s'
      exact ⟨_, _, _, .readExact _ (by rw [hv']; exact h) h'⟩
  | takeToEnd n onErr k ih =>
    obtain ⟨cs, r, s', h⟩ := ReadsToEnd.exists hv n [] s
    cases r with
    | error e => exact ⟨_, _, _, .takeToEndErr h⟩
    | ok bs =>
      obtain ⟨cs', o, s'', h'⟩ := ih bs s'
      exact ⟨_, _, _, .takeToEnd h h'⟩
  | alloc n k ih =>
    cases ha : t.allocate n with
    | some q => exact ⟨_, _, _, .allocPanic ha⟩
    | none =>
      obtain ⟨cs, o, s', h⟩ := ih s
      exact ⟨_, _, _, .alloc ha h⟩

end Dlhn
