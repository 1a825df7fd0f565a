import Verif.Proof.Targets
import Verif.Spec.Collect
/-! # Slices as readers, and collecting data -/
namespace Dlhn

variable {ε α : Type}

namespace Prog

theorem runSlice_run (t : Target) (std : OnShort) (p : Prog ε α) (bs : List UInt8) :
    Prog.run t p bs = withLeft (p.runSlice t std bs) := by
  rw [Prog.run]
  induction p generalizing bs with
  | done o => cases o <;> rfl
  | readExact n onErr k ih =>
    rw [Prog.exec, Prog.runSlice]
    split
    · exact ih _ _
    · rfl
  | takeToEnd n onErr k ih =>
    rw [Prog.exec, Prog.runSlice]
    split
    · exact ih _ _
    · rename_i hn
      rw [List.take_of_length_le (by omega), List.drop_of_length_le (by omega)]
      exact ih _ _
  | alloc n k ih =>
    rw [Prog.exec, Prog.runSlice]
    cases t.allocate n with
    | some q => rfl
    | none => exact ih _

theorem runSlice_toEnd (t : Target) (p : Prog ε α) (bs : List UInt8) :
    p.runSlice t .toEnd bs = p.execAt t bs := by
  induction p generalizing bs with
  | done o => rfl
  | readExact n onErr k ih =>
    rw [Prog.execAt, Prog.runSlice]
    split
    · exact ih _ _
    · rfl
  | takeToEnd n onErr k ih =>
    rw [Prog.execAt, Prog.runSlice]
    split
    · exact ih _ _
    · rename_i hn
      rw [List.take_of_length_le (by omega), List.drop_of_length_le (by omega)]
      exact ih _ _
  | alloc n k ih =>
    rw [Prog.execAt, Prog.runSlice]
    cases t.allocate n with
    | some q => rfl
    | none => exact ih _

theorem runSlice_stay (t : Target) (p : Prog ε α) (bs : List UInt8) :
    p.runSlice t .stay bs = p.runSlice t .toEnd bs ∨
      ∃ e used, bs = used ++ (p.runSlice t .stay bs).2 ∧ (p.runSlice t .stay bs).1 = .err e ∧
        p.runSlice t .toEnd bs = (.err e, []) := by
  induction p generalizing bs with
  | done o => exact .inl rfl
  | readExact n onErr k ih =>
    rw [Prog.runSlice, Prog.runSlice]
    split
    · rename_i hn
      rcases ih (takeVec bs hn) (bs.drop n) with h | ⟨e, used, h1, h2, h3⟩
      · exact .inl h
      · refine .inr ⟨e, bs.take n ++ used, ?_, h2, h3⟩
        rw [List.append_assoc, ← h1, List.take_append_drop]
    · exact .inr ⟨_, [], rfl, rfl, rfl⟩
  | takeToEnd n onErr k ih =>
    rw [Prog.runSlice, Prog.runSlice]
    rcases ih (bs.take n) (bs.drop n) with h | ⟨e, used, h1, h2, h3⟩
    · exact .inl h
    · refine .inr ⟨e, bs.take n ++ used, ?_, h2, h3⟩
      rw [List.append_assoc, ← h1, List.take_append_drop]
  | alloc n k ih =>
    rw [Prog.runSlice, Prog.runSlice]
    cases t.allocate n with
    | some q => exact .inl rfl
    | none => exact ih _

/-- A slice on which the data suffice, or not. -/
theorem runSlice_complete {e : IoErr → ε} (t : Target) (std : OnShort) {p : Prog ε α}
    (hp : Strict e p) (bs : List UInt8) :
    match p.complete t bs with
    | some r => p.runSlice t std bs = r
    | none => (p.runSlice t std bs).1 = .err (e .unexpectedEof) ∧
        (std = .toEnd → (p.runSlice t std bs).2 = []) := by
  induction p generalizing bs with
  | done o => rfl
  | readExact n onErr k ih =>
    rw [Prog.complete, Prog.runSlice]
    by_cases hn : n ≤ bs.length
    · rw [dif_pos hn, dif_pos hn]
      exact ih _ (hp.2 _) _
    · rw [dif_neg hn, dif_neg hn]
      refine ⟨by rw [hp.1], fun h => ?_⟩
      subst h; rfl
  | takeToEnd n onErr k ih =>
    rw [Prog.complete, Prog.runSlice]
    by_cases hn : n ≤ bs.length
    · rw [if_pos hn]
      exact ih _ (hp.2.2 _) _
    · rw [if_neg hn, List.take_of_length_le (by omega), List.drop_of_length_le (by omega),
        hp.2.1 bs (by omega)]
      exact ⟨rfl, fun _ => rfl⟩
  | alloc n k ih =>
    rw [Prog.complete, Prog.runSlice]
    cases t.allocate n with
    | some q => rfl
    | none => exact ih hp bs

theorem runSlice_suffix (t : Target) (std : OnShort) (p : Prog ε α) (bs : List UInt8) :
    (p.runSlice t std bs).2 <:+ bs := by
  induction p generalizing bs with
  | done o => exact List.suffix_refl _
  | readExact n onErr k ih =>
    rw [Prog.runSlice]
    split
    · exact (ih _ _).trans (List.drop_suffix _ _)
    · cases std
      · exact List.suffix_refl _
      · exact List.nil_suffix
  | takeToEnd n onErr k ih =>
    rw [Prog.runSlice]
    exact (ih _ _).trans (List.drop_suffix _ _)
  | alloc n k ih =>
    rw [Prog.runSlice]
    cases t.allocate n with
    | some q => exact List.suffix_refl _
    | none => exact ih _

theorem sliceStops {e : IoErr → ε} (t : Target) (std : OnShort) {p : Prog ε α}
    (hp : Strict e p) (bs : List UInt8) :
    SliceStops t std (e .unexpectedEof) p bs (p.runSlice t std bs).1 (p.runSlice t std bs).2 := by
  have h := runSlice_complete t std hp bs
  cases hc : p.complete t bs with
  | some r =>
    obtain ⟨o, rest⟩ := r
    rw [hc] at h
    obtain ⟨used, rfl, u2, u3⟩ := complete_split t hc
    rw [h]
    refine .inl ⟨used, rfl, fun std' more => ?_, fun std' pre hpre hne => ?_⟩
    · have h' := runSlice_complete t std' hp (used ++ more)
      rw [u2] at h'
      exact h'
    · have h' := runSlice_complete t std' hp pre
      rw [u3 pre hpre hne] at h'
      exact h'.1
  | none =>
    rw [hc] at h
    refine .inr ⟨h.1, runSlice_suffix t std p bs, h.2, fun std' pre hpre => ?_⟩
    have h' := runSlice_complete t std' hp pre
    rw [complete_none t hc hpre] at h'
    exact h'.1

end Prog

/-! ## Collecting data -/

/-- `enc` is read as `v`, whatever follows, and not before it is complete. -/
structure Codes (read : List UInt8 → Outcome DeErr α × List UInt8) (enc : List UInt8) (v : α) :
    Prop where
  whole : ∀ more, read (enc ++ more) = (.ok v, more)
  cut : ∀ pre, pre <+: enc → pre ≠ enc → (read pre).1 = .err .read

theorem Recognised.codes {t : Target} {p : Prog DeErr α} {enc : List UInt8} {v : α}
    (h : Recognised t p enc v) (std : OnShort) : Codes (p.runSlice t std) enc v := by
  constructor
  · intro more
    have hb : Script.bytes (if enc ++ more = [] then [] else [.data (enc ++ more)]) = enc ++ more := by
      split
      · rename_i hx; rw [hx]; rfl
      · rename_i hx; rw [Script.bytes, if_neg hx, Script.bytes, List.append_nil]
    have hcl : Script.Clean (if enc ++ more = [] then [] else [.data (enc ++ more)]) := by
      intro ev hev
      split at hev
      · simp at hev
      · rename_i hne
        exact .inr ⟨enc ++ more, hne, by simpa using hev⟩
    obtain ⟨s', e1, e2, -⟩ := h.whole (fun _ => 0) _ more hb
    have hx := Prog.runScriptAt_clean_any t (fun _ => 0) p hcl
    rw [e1, hb, e2] at hx
    cases std with
    | toEnd => rw [Prog.runSlice_toEnd, ← hx]
    | stay =>
      rcases Prog.runSlice_stay t p (enc ++ more) with h | ⟨e, used, -, -, h3⟩
      · rw [h, Prog.runSlice_toEnd, ← hx]
      · rw [Prog.runSlice_toEnd, ← hx] at h3; simp at h3
  · intro pre hp hne
    have := h.slice pre hp hne
    rw [Prog.runSlice_run t std] at this
    cases hx : p.runSlice t std pre with
    | mk o l => rw [hx] at this; cases o <;> simp_all [withLeft]

section
variable {read : List UInt8 → Outcome DeErr α × List UInt8}

theorem Drains.unique {buf : List UInt8} {vs ws : List α} {l l' : List UInt8}
    (h : Drains read buf vs l) (h' : Drains read buf ws l') : vs = ws ∧ l = l' := by
  induction h generalizing ws with
  | wait h =>
    cases h' with
    | wait _ => exact ⟨rfl, rfl⟩
    | value h2 _ => rw [h] at h2; simp at h2
  | value h _ ih =>
    cases h' with
    | wait h2 => rw [h] at h2; simp at h2
    | value h2 m2 =>
      rw [h] at h2
      simp only [Prod.mk.injEq, Outcome.ok.injEq] at h2
      obtain ⟨rfl, rfl⟩ := h2
      obtain ⟨rfl, rfl⟩ := ih m2
      exact ⟨rfl, rfl⟩

theorem Receives.unique {buf : List UInt8} {cs : List (List UInt8)} {vs ws : List α}
    {l l' : List UInt8} (h : Receives read buf cs vs l) (h' : Receives read buf cs ws l') :
    vs = ws ∧ l = l' := by
  induction h generalizing ws with
  | stop => cases h'; exact ⟨rfl, rfl⟩
  | piece h _ ih =>
    cases h' with
    | piece h2 m2 =>
      obtain ⟨rfl, rfl⟩ := h.unique h2
      obtain ⟨rfl, rfl⟩ := ih m2
      exact ⟨rfl, rfl⟩

/-- The values of which the buffer has all bytes. -/
theorem drains_sent {ι : Type} (enc : ι → List UInt8) (val : ι → α)
    (h0 : (read []).1 = .err .read) :
    (sent : List ι) → (∀ v ∈ sent, Codes read (enc v) (val v)) → (buf : List UInt8) →
    buf <+: (sent.map enc).flatten →
    ∃ vs rest l, sent = vs ++ rest ∧ buf = (vs.map enc).flatten ++ l ∧ Drains read buf (vs.map val) l ∧
      (∀ v rest', rest = v :: rest' → l <+: enc v ∧ l ≠ enc v) ∧ (rest = [] → l = [])
  | [], _, buf, hb => by
    have : buf = [] := by simpa using hb
    subst this
    exact ⟨[], [], [], rfl, rfl, .wait (left := (read []).2) (by rw [← h0]),
      fun v rest' h => by simp at h, fun _ => rfl⟩
  | v :: sent, hc, buf, hb => by
    have hv := hc v List.mem_cons_self
    rw [List.map_cons, List.flatten_cons] at hb
    by_cases hlen : (enc v).length ≤ buf.length
    · obtain ⟨suf, hs⟩ := hb
      have hpre : enc v <+: buf := by
        refine List.prefix_of_prefix_length_le (l₃ := enc v ++ (sent.map enc).flatten)
          (List.prefix_append _ _) ⟨suf, hs⟩ hlen
      obtain ⟨b, rfl⟩ := hpre
      rw [List.append_assoc, List.append_cancel_left_eq] at hs
      obtain ⟨vs, rest, l, h1, h2, h3, h4, h5⟩ := drains_sent enc val h0 sent
        (fun w hw => hc w (List.mem_cons_of_mem _ hw)) b ⟨suf, hs⟩
      refine ⟨v :: vs, rest, l, by rw [h1]; rfl, ?_, .value (hv.whole b) h3, h4, h5⟩
      rw [List.map_cons, List.flatten_cons, List.append_assoc, ← h2]
    · have hpre : buf <+: enc v :=
        List.prefix_of_prefix_length_le hb (List.prefix_append _ _) (by omega)
      have hne : buf ≠ enc v := fun h => by rw [h] at hlen; omega
      refine ⟨[], v :: sent, buf, rfl, rfl,
        .wait (left := (read buf).2) (by rw [← hv.cut buf hpre hne]), ?_, by simp⟩
      intro w rest' h
      simp only [List.cons.injEq] at h
      rw [← h.1]
      exact ⟨hpre, hne⟩

theorem receives_sent {ι : Type} (enc : ι → List UInt8) (val : ι → α)
    (h0 : (read []).1 = .err .read) :
    (cs : List (List UInt8)) → (sent : List ι) → (∀ v ∈ sent, Codes read (enc v) (val v)) →
    (buf : List UInt8) → buf ++ cs.flatten <+: (sent.map enc).flatten →
    (∀ v sent', sent = v :: sent' → buf <+: enc v ∧ buf ≠ enc v) →
    ∃ vs rest l, sent = vs ++ rest ∧ buf ++ cs.flatten = (vs.map enc).flatten ++ l ∧
      Receives read buf cs (vs.map val) l ∧ (∀ v rest', rest = v :: rest' → l <+: enc v ∧ l ≠ enc v)
  | [], sent, _, buf, hb, hn => ⟨[], sent, buf, rfl, by simp, .stop, hn⟩
  | c :: cs, sent, hc, buf, hb, hn => by
    rw [List.flatten_cons, ← List.append_assoc] at hb
    obtain ⟨vs, rest, l, rfl, h2, h3, h4, -⟩ := drains_sent enc val h0 sent hc (buf ++ c)
      (List.IsPrefix.trans (List.prefix_append _ _) hb)
    rw [h2, List.map_append, List.flatten_append, List.append_assoc,
      List.prefix_append_right_inj] at hb
    obtain ⟨ws, rest', l', rfl, g2, g3, g4⟩ := receives_sent enc val h0 cs rest
      (fun w hw => hc w (List.mem_append_right _ hw)) l hb h4
    refine ⟨vs ++ ws, rest', l', by rw [List.append_assoc], ?_,
      List.map_append ▸ .piece h3 g3, g4⟩
    rw [List.flatten_cons, ← List.append_assoc, h2, List.append_assoc, g2, List.map_append,
      List.flatten_append, List.append_assoc]

theorem receives_iff {ι : Type} (enc : ι → List UInt8) (val : ι → α)
    (h0 : (read []).1 = .err .read)
    (sent : List ι) (hc : ∀ v ∈ sent, Codes read (enc v) (val v)) (cs : List (List UInt8))
    (hb : cs.flatten <+: (sent.map enc).flatten) (vs : List α) (l : List UInt8) :
    Receives read [] cs vs l ↔ ∃ done, vs = done.map val ∧
      CompleteIn enc sent cs.flatten done l := by
  have hne : ∀ v ∈ sent, enc v ≠ [] := fun v hv he => by
    have := (hc v hv).whole []
    rw [he, List.append_nil] at this
    rw [this] at h0; simp at h0
  obtain ⟨ws, rest, l', rfl, h2, h3, h4⟩ := receives_sent enc val h0 cs sent hc [] hb
    fun v sent' h => ⟨List.nil_prefix, fun he => hne v (by rw [h]; exact List.mem_cons_self) he.symm⟩
  rw [List.nil_append] at h2
  have hd : CompleteIn enc (ws ++ rest) cs.flatten ws l' := by
    refine ⟨List.prefix_append _ _, h2, fun v hv => ?_⟩
    rw [List.prefix_append_right_inj] at hv
    obtain ⟨r, hr⟩ := hv
    exact h4 v r hr.symm
  constructor
  · intro h
    obtain ⟨rfl, rfl⟩ := h3.unique h
    exact ⟨ws, rfl, hd⟩
  · -- only one split has this property
    rintro ⟨vs, rfl, h⟩
    have key : ∀ (a b : List ι) (la lb : List UInt8), CompleteIn enc (ws ++ rest) cs.flatten a la →
        CompleteIn enc (ws ++ rest) cs.flatten b lb → a.length < b.length → False := by
      intro a b la lb ha hb hlt
      have hab : a <+: b := List.prefix_of_prefix_length_le ha.1 hb.1 (by omega)
      obtain ⟨r, rfl⟩ := hab
      cases r with
      | nil => simp at hlt
      | cons v r =>
        have hv : a ++ [v] <+: ws ++ rest :=
          List.IsPrefix.trans ⟨r, by simp⟩ hb.1
        obtain ⟨h1, h2⟩ := ha.2.2 v hv
        have he := ha.2.1.symm.trans hb.2.1
        rw [List.map_append, List.flatten_append, List.append_assoc,
          List.append_cancel_left_eq, List.map_cons, List.flatten_cons, List.append_assoc] at he
        obtain ⟨s, hs⟩ := h1
        have hl := congrArg List.length he
        have hl' := congrArg List.length hs
        simp only [List.length_append] at hl hl'
        refine h2 ?_
        have : s = [] := by
          refine List.length_eq_zero_iff.mp ?_
          omega
        rw [this, List.append_nil] at hs
        exact hs
    have hlen : vs.length = ws.length := by
      rcases Nat.lt_trichotomy vs.length ws.length with hlt | he | hlt
      · exact (key _ _ _ _ h hd hlt).elim
      · exact he
      · exact (key _ _ _ _ hd h hlt).elim
    have hvw : vs = ws :=
      List.IsPrefix.eq_of_length (List.prefix_of_prefix_length_le h.1 hd.1 (by omega)) hlen
    subst hvw
    have : l = l' := by
      have := h.2.1.symm.trans hd.2.1
      rwa [List.append_cancel_left_eq] at this
    rw [this]
    exact h3

/-! ### Arbitrary data -/

/-- What is not `Err(Read)` does not change with more data. -/
def Settles (read : List UInt8 → Outcome DeErr α × List UInt8) : Prop :=
  ∀ b c, (read b).1 = .err .read ∨ read (b ++ c) = ((read b).1, (read b).2 ++ c)

theorem _root_.Dlhn.Prog.Strict.settles {t : Target} {p : Prog DeErr α}
    (hp : Prog.Strict De.orRead p) (std : OnShort) : Settles (p.runSlice t std) := by
  intro b c
  have h := Prog.runSlice_complete t std hp b
  cases hc : p.complete t b with
  | none => rw [hc] at h; exact .inl h.1
  | some r =>
    rw [hc] at h
    obtain ⟨o, rest⟩ := r
    obtain ⟨used, rfl, h2, -⟩ := Prog.complete_split t hc
    have h' := Prog.runSlice_complete t std hp (used ++ (rest ++ c))
    rw [h2] at h'
    refine .inr ?_
    rw [List.append_assoc, h', h]

theorem drains_append (hs : Settles read) {b c buf : List UInt8} {vs : List α} :
    Drains read (b ++ c) vs buf ↔
      ∃ us ws b', Drains read b us b' ∧ Drains read (b' ++ c) ws buf ∧ vs = us ++ ws := by
  constructor
  · intro h
    generalize hx : b ++ c = x at h
    induction h generalizing b with
    | wait h =>
      subst hx
      rcases hs b c with h1 | h1
      · exact ⟨[], [], b, .wait (left := (read b).2) (by rw [← h1]), .wait h, rfl⟩
      · rw [h, Prod.mk.injEq] at h1
        exact ⟨[], [], b, .wait (left := (read b).2) (by rw [h1.1]), .wait h, rfl⟩
    | value h m ih =>
      subst hx
      rcases hs b c with h1 | h1
      · exact ⟨[], _, b, .wait (left := (read b).2) (by rw [← h1]), .value h m, rfl⟩
      · rw [h, Prod.mk.injEq] at h1
        obtain ⟨us, ws, b', g1, g2, rfl⟩ := ih h1.2.symm
        exact ⟨_ :: us, ws, b', .value (left := (read b).2) (by rw [h1.1]) g1, g2, rfl⟩
  · rintro ⟨us, ws, b', h1, h2, rfl⟩
    induction h1 with
    | wait _ => exact h2
    | @value b l b' v us h m ih =>
      refine .value ?_ (ih h2)
      rcases hs b c with h1 | h1
      · rw [h] at h1; simp at h1
      · rw [h1, h]

theorem receives_any (hs : Settles read) {c buf b : List UInt8} {cs : List (List UInt8)}
    {vs : List α} :
    Receives read b (c :: cs) vs buf ↔ Drains read (b ++ (c :: cs).flatten) vs buf := by
  induction cs generalizing b c vs with
  | nil =>
    simp only [List.flatten_cons, List.flatten_nil, List.append_nil]
    constructor
    · rintro (_ | ⟨h, ⟨⟩⟩)
      rw [List.append_nil]; exact h
    · intro h
      rw [← List.append_nil vs]; exact .piece h .stop
  | cons d cs ih =>
    rw [List.flatten_cons, ← List.append_assoc, drains_append hs]
    constructor
    · rintro (_ | ⟨h, m⟩)
      exact ⟨_, _, _, h, ih.mp m, rfl⟩
    · rintro ⟨us, ws, b', h1, h2, rfl⟩
      exact .piece h1 (ih.mpr h2)

end

end Dlhn
