import Verif.Proof.AnyReader
import Verif.Spec.Log
/-! # Reading a stream to its end -/
namespace Dlhn

variable {σ α β : Type} {step : RStep σ} {t : Target} {p : Prog DeErr α}

/-- If all data are there, all values are complete. -/
theorem CompleteIn.all {enc : β → List UInt8} {sent vs : List β} {data left : List UInt8}
    (h : CompleteIn enc sent data vs left) (hd : data = (sent.map enc).flatten) :
    vs = sent ∧ left = [] := by
  obtain ⟨⟨more, rfl⟩, h2, h3⟩ := h
  rw [hd, List.map_append, List.flatten_append] at h2
  have h2 := List.append_cancel_left h2
  cases more with
  | nil => exact ⟨by simp, by rw [← h2]; rfl⟩
  | cons v more =>
    obtain ⟨h4, h5⟩ := h3 v ⟨more, by simp⟩
    rw [List.map_cons, List.flatten_cons] at h2
    exact absurd (h4.eq_of_length (Nat.le_antisymm h4.length_le (by rw [← h2]; simp))) h5

/-- What was written, or a beginning of it, is read up to the last value that is all there. -/
theorem ReadsOut.written (hl : step.Lawful) (hp : Prog.Tame De.orRead p) (enc : β → List UInt8)
    (back : β → α) (hw : ∃ w b, enc w ≠ [] ∧
      ∀ more, p.complete t (enc w ++ more) = some (.ok b, more)) {s s' : σ}
    {cs : List ReadRes} {ws : List α} {e : DeErr} (h : ReadsOut step t p s cs ws e s')
    (sent : List β)
    (hc : ∀ v ∈ sent, ∀ more, p.complete t (enc v ++ more) = some (.ok (back v), more))
    (hh : handed cs <+: (sent.map enc).flatten) :
    e = .read ∧ (∃ c, cs.getLast? = some c ∧ c.ends ≠ none) ∧
      ∃ vs left, ws = vs.map back ∧ CompleteIn enc sent (handed cs) vs left := by
  obtain ⟨w, b, hw1, hw2⟩ := hw
  induction h generalizing sent with
  | @stop s s' cs e h =>
    cases sent with
    | nil =>
      have h0 : handed cs = [] := List.prefix_nil.mp hh
      rcases h.written hl hp (hw2 []) (by
        exact ((before_prefix cs).trans hh).trans List.nil_prefix) with ⟨i, -⟩ | ⟨i, -, -, x, j⟩
      · cases i
      · obtain ⟨c, j1, j2⟩ := j.last
        refine ⟨by simpa using i, ⟨c, j1, by rw [j2]; simp⟩, [], [], rfl, List.nil_prefix, by simp [h0], fun v hv => ?_⟩
        exact absurd (List.prefix_nil.mp hv) (by simp)
    | cons v sent =>
      rcases h.written hl hp (hc v List.mem_cons_self _) ((before_prefix cs).trans hh) with
        ⟨i, -⟩ | ⟨i1, i2, i3, x, j⟩
      · cases i
      · obtain ⟨c, j1, j2⟩ := j.last
        refine ⟨by simpa using i1, ⟨c, j1, by rw [j2]; simp⟩, [], handed cs, rfl, List.nil_prefix, by simp, fun u hu => ?_⟩
        have : u = v := by simpa using hu
        exact this ▸ ⟨i2, i3⟩
  | @next s s' s'' cs ds v' vs e h more ih =>
    rw [handed_append] at hh ⊢
    cases sent with
    | nil =>
      have h0 : handed cs = [] := (List.append_eq_nil_iff.mp (List.prefix_nil.mp hh)).1
      rcases h.written hl hp (hw2 []) (by
        exact ((before_prefix cs).trans (by rw [h0]; exact List.nil_prefix))) with ⟨-, i, -⟩ | ⟨i, -⟩
      · exact absurd (h0 ▸ i).symm hw1
      · cases i
    | cons v sent =>
      rcases h.written hl hp (hc v List.mem_cons_self _)
        ((before_prefix cs).trans ((List.prefix_append _ _).trans hh)) with ⟨i1, i2, -⟩ | ⟨i, -⟩
      · rw [i2, List.map_cons, List.flatten_cons] at hh
        obtain ⟨j1, ⟨c, k1, k2⟩, vs', left, j3, j4, j5, j6⟩ := ih sent
          (fun u hu => hc u (List.mem_cons_of_mem _ hu)) ((List.prefix_append_right_inj _).mp hh)
        refine ⟨j1, ⟨c, ?_, k2⟩, v :: vs', left, ?_, ?_, ?_, fun u hu => ?_⟩
        · rw [List.getLast?_append, k1]; rfl
        · simp only [Outcome.ok.injEq] at i1
          rw [i1, j3]; rfl
        · exact List.cons_prefix_cons.mpr ⟨rfl, j4⟩
        · rw [i2, j5]; simp
        · exact j6 u (by simpa using hu)
      · cases i

/-- What follows values that are all there does no harm to them. -/
theorem ReadsOut.kept (hl : step.Lawful) (hp : Prog.Tame De.orRead p) (enc : β → List UInt8)
    (back : β → α) {s s' : σ} {cs : List ReadRes} {ws : List α} {e : DeErr}
    (h : ReadsOut step t p s cs ws e s') (sent : List β) (rest : List UInt8)
    (hc : ∀ v ∈ sent, ∀ more, p.complete t (enc v ++ more) = some (.ok (back v), more))
    (hh : handed cs = (sent.map enc).flatten ++ rest) : ∃ us, ws = sent.map back ++ us := by
  induction h generalizing sent with
  | @stop s s' cs e h =>
    cases sent with
    | nil => exact ⟨[], rfl⟩
    | cons v sent =>
      have e1 : handed cs = enc v ++ ((sent.map enc).flatten ++ rest) := by rw [hh]; simp
      rcases h.written hl hp (hc v List.mem_cons_self ((sent.map enc).flatten ++ rest))
        ((before_prefix cs).trans (by rw [e1]; exact List.prefix_refl _)) with ⟨i, -⟩ | ⟨-, i2, i3, -⟩
      · cases i
      · refine absurd (i2.eq_of_length (Nat.le_antisymm i2.length_le ?_)) i3
        rw [e1]; simp
  | @next s s' s'' cs ds v' vs e h more ih =>
    cases sent with
    | nil => exact ⟨_, rfl⟩
    | cons v sent =>
      have e1 : handed cs ++ handed ds = enc v ++ ((sent.map enc).flatten ++ rest) := by
        rw [← handed_append, hh]; simp
      rcases h.written hl hp (hc v List.mem_cons_self ((sent.map enc).flatten ++ rest))
        ((before_prefix cs).trans (by rw [← e1]; exact List.prefix_append _ _)) with
          ⟨i1, i2, -⟩ | ⟨i, -⟩
      · rw [i2] at e1
        obtain ⟨us, hu⟩ := ih sent (fun u hu => hc u (List.mem_cons_of_mem _ hu))
          (List.append_cancel_left e1)
        simp only [Outcome.ok.injEq] at i1
        exact ⟨us, by rw [i1, hu]; rfl⟩
      · cases i

theorem ReadsExact.room {room : σ → Nat} (hr : step.Holds room) {n : Nat} {acc : List UInt8}
    {s s' : σ} {cs : List ReadRes} {r : Except IoErr (List UInt8)}
    (h : ReadsExact step n acc s cs r s') : (handed cs).length + room s' ≤ room s := by
  induction h with
  | full acc s => simp [handed]
  | eof hn h => simpa [handed] using hr.bytes _ _ _ _ h
  | more hn h hb hk ih =>
    have := hr.bytes _ _ _ _ h
    simp only [handed, List.length_append]; omega
  | interrupted hn h hk ih =>
    have := hr.interrupted _ _ _ h
    simp only [handed]; omega
  | fail hn h => simpa [handed] using hr.fail _ _ _ _ h

theorem ReadsToEnd.room {room : σ → Nat} (hr : step.Holds room) {n : Nat} {acc : List UInt8}
    {s s' : σ} {cs : List ReadRes} {r : Except IoErr (List UInt8)}
    (h : ReadsToEnd step n acc s cs r s') : (handed cs).length + room s' ≤ room s := by
  induction h with
  | full acc s => simp [handed]
  | eof hn hm h => simpa [handed] using hr.bytes _ _ _ _ h
  | more hn hm h hb hk ih =>
    have := hr.bytes _ _ _ _ h
    simp only [handed, List.length_append]; omega
  | interrupted hn hm h hk ih =>
    have := hr.interrupted _ _ _ h
    simp only [handed]; omega
  | fail hn hm h => simpa [handed] using hr.fail _ _ _ _ h

theorem Runs.room {ε γ : Type} {p : Prog ε γ} {room : σ → Nat} (hr : step.Holds room) {s s' : σ}
    {cs : List ReadRes} {o : Outcome ε γ} (h : Runs step t p s cs o s') :
    (handed cs).length + room s' ≤ room s := by
  induction h with
  | done o s => simp [handed]
  | readExact v h hk ih =>
    have := h.room hr
    rw [handed_append, List.length_append]; omega
  | readExactErr h => exact h.room hr
  | takeToEnd h hk ih =>
    have := h.room hr
    rw [handed_append, List.length_append]; omega
  | takeToEndErr h => exact h.room hr
  | alloc ha hk ih => exact ih
  | allocPanic ha => simp [handed]

/-- The loop ends if every value takes a byte and there is no panic. -/
theorem ReadsOut.exists (hl : step.Lawful) (hv : step.Live) {room : σ → Nat}
    (hr : step.Holds room)
    (hok : ∀ {s s' : σ} {cs : List ReadRes} {o : Outcome DeErr α}, Runs step t p s cs o s' →
      (∃ v, o = .ok v ∧ 0 < (handed cs).length) ∨ ∃ e, o = .err e) (s : σ) :
    ∃ cs ws e s', ReadsOut step t p s cs ws e s' := by
  generalize hn : room s = n
  induction n using Nat.strongRecOn generalizing s with
  | _ n ih =>
    obtain ⟨cs, o, s', h⟩ := Runs.exists hl hv t p s
    rcases hok h with ⟨v, rfl, h0⟩ | ⟨e, rfl⟩
    · have := h.room hr
      obtain ⟨ds, ws, e, s'', hm⟩ := ih (room s') (by omega) s' rfl
      exact ⟨_, _, _, _, .next h hm⟩
    · exact ⟨_, _, _, _, .stop h⟩

theorem fileStep_lawful : fileStep.Lawful := by
  rintro s m bs s' ⟨h, -⟩
  cases h
  exact List.length_take_le _ _

theorem fileStep_live : fileStep.Live :=
  ⟨fun s m _ => ⟨_, _, rfl, rfl⟩, fun _ => 0, by rintro s m s' ⟨h, -⟩; cases h⟩

theorem fileStep_holds : fileStep.Holds List.length := by
  refine ⟨?_, ?_, ?_⟩
  · rintro s m bs s' ⟨h, rfl⟩
    cases h
    simp; omega
  · rintro s m s' ⟨h, -⟩; cases h
  · rintro s m e s' ⟨h, -⟩; cases h

theorem ReadsExact.file {n : Nat} {acc : List UInt8} {s s' : List UInt8} {cs : List ReadRes}
    {r : Except IoErr (List UInt8)} (h : ReadsExact fileStep n acc s cs r s') :
    s = handed cs ++ s' ∧ ∀ c ∈ cs, c.ends ≠ none → s' = [] := by
  induction h with
  | full acc s => simp [handed]
  | @eof n acc s s' hn h =>
    obtain ⟨h1, rfl⟩ := h
    simp only [ReadRes.ok.injEq] at h1
    have hs : s = [] := by
      rcases List.take_eq_nil_iff.mp h1.symm with h | h
      · omega
      · exact h
    subst hs
    simp [handed]
  | @more n acc bs s s' s'' cs r hn h hb hk ih =>
    obtain ⟨h1, rfl⟩ := h
    cases h1
    refine ⟨?_, fun c hc he => ?_⟩
    · rw [handed, List.append_assoc, ← ih.1, List.take_append_drop]
    · rcases List.mem_cons.mp hc with rfl | hc
      · exact absurd (ends_ok hb) he
      · exact ih.2 c hc he
  | interrupted hn h hk ih => cases h.1
  | fail hn h => cases h.1

theorem ReadsToEnd.file {n : Nat} {acc : List UInt8} {s s' : List UInt8} {cs : List ReadRes}
    {r : Except IoErr (List UInt8)} (h : ReadsToEnd fileStep n acc s cs r s') :
    s = handed cs ++ s' ∧ ∀ c ∈ cs, c.ends ≠ none → s' = [] := by
  induction h with
  | full acc s => simp [handed]
  | @eof n m acc s s' hn hm h =>
    obtain ⟨h1, rfl⟩ := h
    simp only [ReadRes.ok.injEq] at h1
    have hs : s = [] := by
      rcases List.take_eq_nil_iff.mp h1.symm with h | h
      · omega
      · exact h
    subst hs
    simp [handed]
  | @more n m acc bs s s' s'' cs r hn hm h hb hk ih =>
    obtain ⟨h1, rfl⟩ := h
    cases h1
    refine ⟨?_, fun c hc he => ?_⟩
    · rw [handed, List.append_assoc, ← ih.1, List.take_append_drop]
    · rcases List.mem_cons.mp hc with rfl | hc
      · exact absurd (ends_ok hb) he
      · exact ih.2 c hc he
  | interrupted hn hm h hk ih => cases h.1
  | fail hn hm h => cases h.1

theorem Runs.file {ε γ : Type} {p : Prog ε γ} {s s' : List UInt8} {cs : List ReadRes}
    {o : Outcome ε γ} (h : Runs fileStep t p s cs o s') :
    s = handed cs ++ s' ∧ ∀ c ∈ cs, c.ends ≠ none → s' = [] := by
  have glue : ∀ {s s' s'' : List UInt8} {cs ds : List ReadRes},
      (s = handed cs ++ s' ∧ ∀ c ∈ cs, c.ends ≠ none → s' = []) →
      (s' = handed ds ++ s'' ∧ ∀ c ∈ ds, c.ends ≠ none → s'' = []) →
      s = handed (cs ++ ds) ++ s'' ∧ ∀ c ∈ cs ++ ds, c.ends ≠ none → s'' = [] := by
    rintro s s' s'' cs ds ⟨h1, h2⟩ ⟨h3, h4⟩
    refine ⟨by rw [handed_append, List.append_assoc, ← h3, h1], fun c hc he => ?_⟩
    rcases List.mem_append.mp hc with hc | hc
    · have := h2 c hc he
      rw [h3] at this
      exact (List.append_eq_nil_iff.mp this).2
    · exact h4 c hc he
  induction h with
  | done o s => simp [handed]
  | readExact v h hk ih => exact glue h.file ih
  | readExactErr h => exact h.file
  | takeToEnd h hk ih => exact glue h.file ih
  | takeToEndErr h => exact h.file
  | alloc ha hk ih => exact ih
  | allocPanic ha => simp [handed]

theorem ReadsOut.file {s s' : List UInt8} {cs : List ReadRes} {ws : List α} {e : DeErr}
    (h : ReadsOut fileStep t p s cs ws e s') :
    s = handed cs ++ s' ∧ ((∃ c, cs.getLast? = some c ∧ c.ends ≠ none) → s' = []) := by
  have key : s = handed cs ++ s' ∧ ∀ c ∈ cs, c.ends ≠ none → s' = [] := by
    induction h with
    | stop h => exact h.file
    | next h more ih =>
      obtain ⟨h1, h2⟩ := h.file
      refine ⟨by rw [handed_append, List.append_assoc, ← ih.1, h1], fun c hc he => ?_⟩
      rcases List.mem_append.mp hc with hc | hc
      · have := h2 c hc he
        rw [ih.1] at this
        exact (List.append_eq_nil_iff.mp this).2
      · exact ih.2 c hc he
  exact ⟨key.1, fun ⟨c, h1, h2⟩ => key.2 c (List.mem_of_getLast? h1) h2⟩

end Dlhn

namespace Dlhn

/-- Every beginning of what was written has complete values and a torn one. -/
theorem CompleteIn.exists {β : Type} (enc : β → List UInt8) (sent : List β) (data : List UInt8)
    (h : data <+: (sent.map enc).flatten) :
    ∃ vs left, CompleteIn enc sent data vs left ∧ (vs = sent → left = []) := by
  induction sent generalizing data with
  | nil =>
    have : data = [] := by simpa using h
    subst this
    exact ⟨[], [], ⟨List.prefix_refl _, rfl, fun v hv => absurd (List.prefix_nil.mp hv) (by simp)⟩,
      fun _ => rfl⟩
  | cons v sent ih =>
    rw [List.map_cons, List.flatten_cons] at h
    by_cases hlen : (enc v).length ≤ data.length
    · obtain ⟨b, rfl⟩ := List.prefix_of_prefix_length_le (List.prefix_append (enc v) _) h hlen
      rw [List.prefix_append_right_inj] at h
      obtain ⟨vs, left, ⟨h1, h2, h3⟩, h4⟩ := ih b h
      refine ⟨v :: vs, left, ⟨List.prefix_cons_inj v |>.mpr h1, by rw [h2]; simp, fun u hu => ?_⟩,
        fun hs => h4 (List.cons.inj hs).2⟩
      exact h3 u ((List.prefix_cons_inj v).mp hu)
    · have hpre : data <+: enc v :=
        List.prefix_of_prefix_length_le h (List.prefix_append _ _) (by omega)
      refine ⟨[], data, ⟨List.nil_prefix, rfl, fun u hu => ?_⟩, fun hs => by simp at hs⟩
      have : u = v := by simpa using hu
      subst this
      exact ⟨hpre, fun he => by rw [he] at hlen; omega⟩

end Dlhn
