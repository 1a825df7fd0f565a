import Verif.Spec.AnyWriter
import Verif.Proof.Writer
import Verif.Proof.SerImpl
/-! # Lemmas about writers of any behaviour -/
namespace Dlhn

variable {σ ε : Type} {step : WStep σ}

theorem accepted_append (cs ds : List WCall) :
    accepted (cs ++ ds) = accepted cs ++ accepted ds := by
  induction cs with
  | nil => rfl
  | cons c cs ih =>
    obtain ⟨bs, r⟩ := c
    cases r <;> simp [accepted, ih]

/-- Every call offers bytes that follow those accepted before. -/
def InOrder (want : List UInt8) (cs : List WCall) : Prop :=
  ∀ cs₁ bs r cs₂, cs = cs₁ ++ (bs, r) :: cs₂ → bs ≠ [] ∧ accepted cs₁ ++ bs <+: want

theorem InOrder.nil (want : List UInt8) : InOrder want [] := by
  intro cs₁ bs r cs₂ h
  simp at h

theorem InOrder.cons {want bs : List UInt8} {r : WriteRes} {cs : List WCall} (hb : bs ≠ [])
    (hw : bs <+: want)
    (h : ∀ cs₁ b x cs₂, cs = cs₁ ++ (b, x) :: cs₂ →
      b ≠ [] ∧ accepted ((bs, r) :: cs₁) ++ b <+: want) :
    InOrder want ((bs, r) :: cs) := by
  intro cs₁ b x cs₂ he
  cases cs₁ with
  | nil =>
    simp only [List.nil_append, List.cons.injEq, Prod.mk.injEq] at he
    obtain ⟨⟨rfl, -⟩, -⟩ := he
    exact ⟨hb, by simpa [accepted] using hw⟩
  | cons c cs₁ =>
    simp only [List.cons_append, List.cons.injEq] at he
    obtain ⟨rfl, he⟩ := he
    exact h cs₁ b x cs₂ he

theorem InOrder.append {want more : List UInt8} {cs ds : List WCall} (h : InOrder want cs)
    (ha : accepted cs = want) (h' : InOrder more ds) : InOrder (want ++ more) (cs ++ ds) := by
  intro cs₁ b x cs₂ he
  rw [List.append_eq_append_iff] at he
  rcases he with ⟨l, rfl, rfl⟩ | ⟨l, rfl, hl⟩
  · obtain ⟨h1, h2⟩ := h' l b x cs₂ rfl
    refine ⟨h1, ?_⟩
    rw [accepted_append, ha, List.append_assoc]
    exact (List.prefix_append_right_inj _).mpr h2
  · cases l with
    | nil =>
      simp only [List.nil_append] at hl
      obtain ⟨h1, h2⟩ := h' [] b x cs₂ (by simpa using hl.symm)
      refine ⟨h1, ?_⟩
      rw [List.append_nil] at ha
      rw [ha]
      exact (List.prefix_append_right_inj _).mpr (by simpa [accepted] using h2)
    | cons c l =>
      simp only [List.cons_append, List.cons.injEq] at hl
      obtain ⟨rfl, -⟩ := hl
      obtain ⟨h1, h2⟩ := h cs₁ b x l rfl
      exact ⟨h1, h2.trans (List.prefix_append _ _)⟩

theorem InOrder.weaken {want want' : List UInt8} {cs : List WCall} (h : InOrder want cs)
    (hw : want <+: want') : InOrder want' cs := fun cs₁ b x cs₂ he =>
  ⟨(h cs₁ b x cs₂ he).1, (h cs₁ b x cs₂ he).2.trans hw⟩

/-- The last call, and it alone, was refused. -/
def Refused (cs : List WCall) (e : IoErr) : Prop :=
  ∃ cs₁ bs r, cs = cs₁ ++ [(bs, r)] ∧ (∀ c ∈ cs₁, c.2.refusal = none) ∧ r.refusal = some e

theorem Refused.cons {c : WCall} {cs : List WCall} {e : IoErr} (hc : c.2.refusal = none)
    (h : Refused cs e) : Refused (c :: cs) e := by
  obtain ⟨cs₁, bs, r, rfl, h1, h2⟩ := h
  exact ⟨c :: cs₁, bs, r, rfl, List.forall_mem_cons.mpr ⟨hc, h1⟩, h2⟩

theorem Refused.append {cs ds : List WCall} {e : IoErr} (hc : ∀ c ∈ cs, c.2.refusal = none)
    (h : Refused ds e) : Refused (cs ++ ds) e := by
  induction cs with
  | nil => exact h
  | cons c cs ih =>
    rw [List.forall_mem_cons] at hc
    exact (ih hc.2).cons hc.1

/-- What `write_all` does on any writer. -/
theorem WritesAll.spec {bs : List UInt8} {s s' : σ} {cs : List WCall} {r : Option IoErr}
    (h : WritesAll step bs s cs r s') :
    InOrder bs cs ∧
    ((r = none ∧ accepted cs = bs ∧ ∀ c ∈ cs, c.2.refusal = none) ∨
      ∃ e, r = some e ∧ Refused cs e ∧ accepted cs <+: bs ∧ accepted cs ≠ bs) := by
  induction h with
  | empty s => exact ⟨.nil _, .inl ⟨rfl, rfl, by simp⟩⟩
  | @interrupted bs s s' s'' cs r hb hs _ ih =>
    refine ⟨.cons hb (List.prefix_refl _) fun cs₁ b x cs₂ he => ih.1 cs₁ b x cs₂ he, ?_⟩
    rcases ih.2 with ⟨h1, h2, h3⟩ | ⟨e, h1, h2, h3⟩
    · exact .inl ⟨h1, h2, List.forall_mem_cons.mpr ⟨rfl, h3⟩⟩
    · exact .inr ⟨e, h1, h2.cons rfl, h3⟩
  | @zero bs s s' hb hs =>
    refine ⟨.cons hb (List.prefix_refl _) (by simp), .inr ⟨_, rfl, ⟨[], bs, .ok 0, rfl, by simp, rfl⟩, ?_⟩⟩
    simp only [accepted, List.take_zero, List.append_nil]
    exact ⟨List.nil_prefix, fun h => hb h.symm⟩
  | @fail bs s s' e hb hs =>
    refine ⟨.cons hb (List.prefix_refl _) (by simp), .inr ⟨_, rfl, ⟨[], bs, .fail e, rfl, by simp, rfl⟩, ?_⟩⟩
    simp only [accepted]
    exact ⟨List.nil_prefix, fun h => hb h.symm⟩
  | @more bs s s' s'' cs r n hn hs _ ih =>
    have hb : bs ≠ [] := by rintro rfl; simp at hn
    have htd := List.take_append_drop (n + 1) bs
    refine ⟨.cons hb (List.prefix_refl _) fun cs₁ b x cs₂ he => ?_, ?_⟩
    · obtain ⟨h1, h2⟩ := ih.1 cs₁ b x cs₂ he
      refine ⟨h1, ?_⟩
      rw [accepted, List.append_assoc]
      conv => rhs; rw [← htd]
      exact (List.prefix_append_right_inj _).mpr h2
    · rcases ih.2 with ⟨h1, h2, h3⟩ | ⟨e, h1, h2, h3, h4⟩
      · exact .inl ⟨h1, by rw [accepted, h2, htd], List.forall_mem_cons.mpr ⟨rfl, h3⟩⟩
      · refine .inr ⟨e, h1, h2.cons rfl, ?_, ?_⟩
        · rw [accepted]
          conv => rhs; rw [← htd]
          exact (List.prefix_append_right_inj _).mpr h3
        · intro hx
          rw [accepted] at hx
          conv at hx => rhs; rw [← htd]
          exact h4 (List.append_cancel_left hx)

/-- An encoder that makes the same of every error, on any writer. -/
theorem WRuns.delivered {f : IoErr → ε} {p : WProg ε} (hp : p.Maps f) {s s' : σ}
    {cs : List WCall} {o : Outcome ε Unit} (h : WRuns step p s cs o s') :
    Delivered f p.exec cs o := by
  induction h with
  | done o s => exact ⟨InOrder.nil _, .inl ⟨rfl, rfl, by simp⟩⟩
  | @writeAllErr bs g k s cs e s' hw =>
    obtain ⟨h1, ⟨h2, -⟩ | ⟨e', h2, h3, h4, h5⟩⟩ := hw.spec
    · cases h2
    · cases h2
      refine ⟨h1.weaken (List.prefix_append _ _), .inr ?_⟩
      obtain ⟨cs₁, b, r, i1, i2, i3⟩ := h3
      refine ⟨cs₁, b, r, e, i1, i2, i3, by rw [hp.1], h4.trans (List.prefix_append _ _), ?_⟩
      intro hx
      simp only [WProg.exec] at hx
      have := h4.length_le
      have hlen := congrArg List.length hx
      simp only [List.length_append] at hlen
      exact h5 (h4.eq_of_length (by omega))
  | @writeAll bs g k s cs s' cs' o s'' hw _ ih =>
    obtain ⟨h1, ⟨-, h3, h4⟩ | ⟨e', h2, -⟩⟩ := hw.spec
    · obtain ⟨j1, j2⟩ := ih hp.2
      refine ⟨h1.append h3 j1, ?_⟩
      rcases j2 with ⟨k1, k2, k3⟩ | ⟨cs₁, b, r, e, k1, k2, k3, k4, k5, k6⟩
      · refine .inl ⟨by rw [accepted_append, h3, k1]; rfl, k2, ?_⟩
        intro c hc
        rcases List.mem_append.mp hc with hc | hc
        · exact h4 c hc
        · exact k3 c hc
      · obtain ⟨cs₂, b', r', l1, l2, l3⟩ := Refused.append h4 ⟨cs₁, b, r, k1, k2, k3⟩
        refine .inr ⟨cs₂, b', r', e, l1, l2, l3, k4, ?_, ?_⟩
        · rw [accepted_append, h3]
          exact (List.prefix_append_right_inj _).mpr k5
        · rw [accepted_append, h3]
          exact fun hx => k6 (List.append_cancel_left hx)
    · cases h2

/-- Every run of `write_all` is one on a script. -/
theorem WritesAll.replay {bs : List UInt8} {s s' : σ} {cs : List WCall} {r : Option IoErr}
    (h : WritesAll step bs s cs r s') (tail : WScript) :
    WScript.writeAll bs (cs.map (·.2.event) ++ tail) = (accepted cs, r, tail) := by
  induction h with
  | empty s => cases tail <;> rfl
  | interrupted hb hs _ ih =>
    have hx : WriteRes.interrupted.event = .interrupted := rfl
    simp only [List.map_cons, List.cons_append, WScript.writeAll, if_neg hb, hx, ih, accepted]
  | zero hb hs =>
    simp [WScript.writeAll, if_neg hb, WriteRes.event, accepted]
  | fail hb hs =>
    simp [WScript.writeAll, if_neg hb, WriteRes.event, accepted]
  | @more bs s s' s'' cs r n hn hs _ ih =>
    have hb : bs ≠ [] := by rintro rfl; simp at hn
    have hx : (WriteRes.ok (n + 1)).event = .accept (n + 1) := rfl
    simp only [List.map_cons, List.cons_append, WScript.writeAll, if_neg hb, hx, ih, accepted]

/-- Every run of an encoder is one on a script. -/
theorem WRuns.replay {p : WProg ε} {s s' : σ} {cs : List WCall} {o : Outcome ε Unit}
    (h : WRuns step p s cs o s') (tail : WScript) :
    p.runScript (cs.map (·.2.event) ++ tail) = (accepted cs, o) := by
  induction h generalizing tail with
  | done o s => rfl
  | writeAllErr hw => simp only [WProg.runScript, hw.replay]
  | writeAll hw _ ih =>
    simp only [WProg.runScript, List.map_append, List.append_assoc, hw.replay, ih, accepted_append]

/-- Every run of an implementation is one on a script. -/
theorem CRuns.replay {p : WCode} {s s' : σ} {cs : List WCall} {o : Outcome SerErr Unit}
    (h : CRuns step p s cs o s') (tail : WScript) :
    p.runScript (cs.map (·.2.event) ++ tail) = (accepted cs, o) := by
  induction h generalizing tail with
  | done o s => rfl
  | writeAll hw _ ih =>
    simp only [WCode.runScript, List.map_append, List.append_assoc, hw.replay, ih, accepted_append]

/-- Code that passes every error on runs as the encoder it stands for. -/
theorem CRuns.ofProg {p : WProg SerErr} {s s' : σ} {cs : List WCall} {o : Outcome SerErr Unit}
    (h : CRuns step (WCode.ofProg p) s cs o s') : WRuns step p s cs o s' := by
  induction p generalizing s cs with
  | done o => cases h; exact .done _ _
  | writeAll bs f k ih =>
    cases h with
    | @writeAll _ _ _ cs r s1 cs' _ _ hw hk =>
      cases r with
      | none => exact .writeAll hw (ih hk)
      | some e =>
        cases hk
        rw [List.append_nil]
        exact .writeAllErr hw

theorem WritesAll.exists (hl : step.Lawful) (hv : step.Live) (bs : List UInt8) (s : σ) :
    ∃ cs r s', WritesAll step bs s cs r s' := by
  obtain ⟨w, hw⟩ := hv.calm
  induction h : bs.length using Nat.strongRecOn generalizing bs s with
  | _ n' ihn =>
    subst h
    induction h : w s using Nat.strongRecOn generalizing s with
    | _ w' ihw =>
      subst h
      by_cases hb : bs = []
      · subst hb; exact ⟨_, _, _, .empty s⟩
      · obtain ⟨r, s', hs⟩ := hv.answers s bs hb
        cases r with
        | ok n =>
          cases n with
          | zero => exact ⟨_, _, _, .zero hb hs⟩
          | succ n =>
            have hn := hl _ _ _ _ hs
            obtain ⟨cs, r, s'', h⟩ := ihn (bs.drop (n + 1)).length (by simp; omega)
              (bs.drop (n + 1)) s' rfl
            exact ⟨_, _, _, .more hn hs h⟩
        | interrupted =>
          obtain ⟨cs, r, s'', h⟩ := ihw _ (hw _ _ _ hs) s' rfl
          exact ⟨_, _, _, .interrupted hb hs h⟩
        | fail e => exact ⟨_, _, _, .fail hb hs⟩

theorem WRuns.exists (hl : step.Lawful) (hv : step.Live) (p : WProg ε) (s : σ) :
    ∃ cs o s', WRuns step p s cs o s' := by
  induction p generalizing s with
  | done o => exact ⟨_, _, _, .done o s⟩
  | writeAll bs f k ih =>
    obtain ⟨cs, r, s', h⟩ := WritesAll.exists hl hv bs s
    cases r with
    | some e => exact ⟨_, _, _, .writeAllErr h⟩
    | none =>
      obtain ⟨cs', o, s'', h'⟩ := ih s'
      exact ⟨_, _, _, .writeAll h h'⟩

theorem CRuns.exists (hl : step.Lawful) (hv : step.Live) (p : WCode) (s : σ) :
    ∃ cs o s', CRuns step p s cs o s' := by
  induction p generalizing s with
  | done o => exact ⟨_, _, _, .done o s⟩
  | writeAll bs k ih =>
    obtain ⟨cs, r, s', h⟩ := WritesAll.exists hl hv bs s
    obtain ⟨cs', o, s'', h'⟩ := ih r s'
    exact ⟨_, _, _, .writeAll h h'⟩

/-- Every call was answered by the writer. -/
theorem WritesAll.answers {bs : List UInt8} {s s' : σ} {cs : List WCall} {r : Option IoErr}
    (h : WritesAll step bs s cs r s') : ∀ c ∈ cs, ∃ s s', step s c.1 c.2 s' := by
  induction h with
  | empty s => simp
  | interrupted hb hs _ ih => exact List.forall_mem_cons.mpr ⟨⟨_, _, hs⟩, ih⟩
  | zero hb hs => simp; exact ⟨_, _, hs⟩
  | fail hb hs => simp; exact ⟨_, _, hs⟩
  | more hn hs _ ih => exact List.forall_mem_cons.mpr ⟨⟨_, _, hs⟩, ih⟩

theorem WRuns.answers {p : WProg ε} {s s' : σ} {cs : List WCall} {o : Outcome ε Unit}
    (h : WRuns step p s cs o s') : ∀ c ∈ cs, ∃ s s', step s c.1 c.2 s' := by
  induction h with
  | done o s => simp
  | writeAllErr hw => exact hw.answers
  | writeAll hw _ ih =>
    intro c hc
    rcases List.mem_append.mp hc with hc | hc
    · exact hw.answers c hc
    · exact ih c hc

end Dlhn
