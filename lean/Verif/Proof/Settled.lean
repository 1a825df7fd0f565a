import Verif.Proof.Buffered
/-!
# Readers that stay at the end of file

On 32-bit targets a decoder can go on after it met the end of file (C59), so that what a
reader does after reporting it matters there. A reader that never does so before its end
is determined by its bytes for every program.
-/
namespace Dlhn

/-- The reader reports end of file only when it has nothing more to deliver. -/
def Script.Settled (s : Script) : Prop := ∀ ev ∈ s, ev ≠ .data []

theorem Script.read_settled {n : Nat} (hn : 0 < n) (s : Script) (hs : s.Settled) :
    Script.Settled (Script.read n s).2 ∧ (s ≠ [] → (Script.read n s).1 ≠ .ok []) := by
  cases s with
  | nil => exact ⟨hs, fun h => absurd rfl h⟩
  | cons ev s =>
    have hs' : Script.Settled s := fun e he => hs e (List.mem_cons_of_mem _ he)
    cases ev with
    | interrupted => exact ⟨hs', fun _ => by simp [Script.read]⟩
    | fail e => exact ⟨hs', fun _ => by simp [Script.read]⟩
    | data c =>
      have h0 : c ≠ [] := fun h => hs (.data c) List.mem_cons_self (by rw [h])
      simp only [Script.read]
      by_cases hc : c.length ≤ n
      · rw [if_pos hc]; exact ⟨hs', fun _ => by simp [h0]⟩
      · rw [if_neg hc]
        refine ⟨?_, fun _ hx => ?_⟩
        · intro e he
          rcases List.mem_cons.mp he with rfl | he
          · simp only [ne_eq, Event.data.injEq]; intro h
            rw [List.drop_eq_nil_iff] at h; omega
          · exact hs' e he
        · simp only [ReadRes.ok.injEq] at hx
          rw [List.take_eq_nil_iff] at hx
          simp [h0] at hx; omega

theorem Script.readExact_settled (n : Nat) (acc : List UInt8) (s : Script) (hs : s.Settled)
    (bs : List UInt8) (s' : Script) (h : Script.readExact n acc s = .ok bs s') : s'.Settled := by
  induction hw : Script.weight s using Nat.strongRecOn generalizing n acc s with
  | _ w ih =>
    subst hw
    rw [Script.readExact] at h
    by_cases hn : n = 0
    · simp only [hn, dite_true] at h; cases h; exact hs
    · simp only [hn, dite_false] at h
      by_cases h0 : s = []
      · simp only [h0, dite_true] at h; cases h
      · simp only [h0, dite_false] at h
        have hlt := Script.read_weight (Nat.pos_of_ne_zero hn) s h0
        have hr := (Script.read_settled (Nat.pos_of_ne_zero hn) s hs).1
        split at h
        · rename_i c s1 heq
          rw [heq] at hlt hr
          split at h
          · cases h
          · exact ih _ hlt _ _ s1 hr h rfl
        · rename_i s1 heq
          rw [heq] at hlt hr
          exact ih _ hlt _ _ s1 hr h rfl
        · cases h

theorem Script.takeToEnd_settled (size : Nat → Nat) (i n : Nat) (acc : List UInt8) (s : Script)
    (hs : s.Settled) (bs : List UInt8) (s' : Script)
    (h : Script.takeToEnd size i n acc s = .ok bs s') :
    s'.Settled ∧ (s.bytes.length < n → s' = []) := by
  induction hw : Script.weight s using Nat.strongRecOn generalizing i n acc s with
  | _ w ih =>
    subst hw
    rw [Script.takeToEnd] at h
    by_cases hn : n = 0
    · simp only [hn, dite_true] at h; cases h; exact ⟨hs, fun hx => by omega⟩
    · simp only [hn, dite_false] at h
      by_cases h0 : s = []
      · simp only [h0, dite_true] at h; cases h; exact ⟨fun e he => by simp at he, fun _ => rfl⟩
      · simp only [h0, dite_false] at h
        have hm : 0 < min n (size i + 1) := by omega
        have hlt := Script.read_weight hm s h0
        have hr := Script.read_settled hm s hs
        have hb := Script.read_bytes hm s
        split at h
        · rename_i c s1 heq
          rw [heq] at hlt hr hb
          split at h
          · rename_i hc; exact absurd (by rw [hc]) (hr.2 h0)
          · rename_i hc
            simp only [hc, if_false] at hb
            obtain ⟨i1, i2⟩ := ih _ hlt _ _ _ s1 hr.1 h rfl
            refine ⟨i1, fun hx => i2 ?_⟩
            rw [hb.2.1] at hx
            simp only [List.length_append] at hx
            omega
        · rename_i s1 heq
          rw [heq] at hlt hr hb
          obtain ⟨i1, i2⟩ := ih _ hlt _ _ _ s1 hr.1 h rfl
          exact ⟨i1, fun hx => i2 (by rw [hb.1]; exact hx)⟩
        · cases h

/-- Every program, strict or not, on a settled reader. -/
theorem Prog.runScript_settled (t : Target) (size : Nat → Nat) (p : Prog ε α) (s : Script)
    (hs : s.Settled) :
    match exec t s.ending p s.bytes with
    | .ok (a, rest) => ∃ s', runScript t size p s = .ok (a, s') ∧ s'.bytes = rest ∧
        s'.ending = s.ending ∧ s'.Settled
    | .err x => runScript t size p s = .err x
    | .panic q => runScript t size p s = .panic q := by
  induction p generalizing s with
  | done o => cases o <;> simp [exec, runScript, hs]
  | readExact n onErr k ih =>
    obtain ⟨h1, h2⟩ := Script.readExact_spec n [] s
    simp only [exec, runScript]
    by_cases hn : n ≤ s.bytes.length
    · obtain ⟨s', e1, e2, e3⟩ := h1 hn
      have hset := Script.readExact_settled n [] s hs _ _ e1
      have hl : n = ([] ++ s.bytes.take n).length := by simp; omega
      rw [dif_pos hn, e1]
      simp only [dif_pos hl]
      have := ih (takeVec s.bytes hn) s' hset
      rw [e2, e3] at this
      have hv : (hl ▸ ⟨([] ++ s.bytes.take n).toArray, rfl⟩ : Vector UInt8 n)
          = takeVec s.bytes hn := by
        apply Vector.toArray_inj.mp
        simp only [takeVec, List.nil_append]
        have key : ∀ (m : Nat) (l : List UInt8) (h : m = l.length),
            (h ▸ (⟨l.toArray, rfl⟩ : Vector UInt8 l.length) : Vector UInt8 m).toArray = l.toArray := by
          intro m l h; subst h; rfl
        exact key n _ (by simpa using hl)
      rw [hv]
      exact this
    · rw [dif_neg hn, h2 (by omega)]
  | takeToEnd n onErr k ih =>
    obtain ⟨h1, h2, h3⟩ := Script.takeToEnd_spec size 0 n [] s
    simp only [exec, runScript]
    by_cases hn : n ≤ s.bytes.length
    · obtain ⟨s', e1, e2, e3⟩ := h1 hn
      have hset := (Script.takeToEnd_settled size 0 n [] s hs _ _ e1).1
      rw [if_pos hn, e1]
      have := ih (s.bytes.take n) s' hset
      rw [e2, e3] at this
      simpa using this
    · rw [if_neg hn]
      cases hE : s.ending with
      | eof =>
        obtain ⟨s', e1⟩ := h3 (by omega) hE
        obtain ⟨-, hset⟩ := Script.takeToEnd_settled size 0 n [] s hs _ _ e1
        rw [e1]
        have h0 := hset (by omega)
        subst h0
        exact ih s.bytes [] (fun e he => by simp at he)
      | fail x =>
        rw [h2 (by omega) x hE]
  | alloc n k ih =>
    simp only [exec, runScript]
    cases t.allocate n with
    | some q => simp
    | none => exact ih s hs

/-- The reader behind a `BufReader` is settled. -/
def BufR.Settled (b : BufR) : Prop := b.rest.Settled

theorem BufR.read_settled {cap n : Nat} (hn : 0 < n) (s : BufR) (hs : s.Settled) :
    BufR.Settled (BufR.read cap n s).2 ∧ (s ≠ ⟨[], []⟩ → (BufR.read cap n s).1 ≠ .ok []) := by
  obtain ⟨buf, s⟩ := s
  by_cases h : buf = []
  · subst h
    have hne : (⟨[], s⟩ : BufR) ≠ ⟨[], []⟩ → s ≠ [] := fun hx h => hx (by rw [h])
    by_cases hc : cap ≤ n
    · obtain ⟨h1, h2⟩ := Script.read_settled hn s hs
      simp only [BufR.read, hc, if_true]
      exact ⟨h1, fun hx => h2 (hne hx)⟩
    · obtain ⟨h1, h2⟩ := Script.read_settled (n := cap) (by omega) s hs
      simp only [BufR.read, hc, if_true, if_false]
      rcases hr : Script.read cap s with ⟨r, s'⟩
      rw [hr] at h1 h2
      cases r with
      | ok bs =>
        refine ⟨h1, fun hx h0 => ?_⟩
        simp only [ReadRes.ok.injEq, List.take_eq_nil_iff] at h0
        rcases h0 with h0 | h0
        · omega
        · exact h2 (hne hx) (by rw [h0])
      | interrupted => exact ⟨h1, fun _ h0 => by simp at h0⟩
      | fail e => exact ⟨h1, fun _ h0 => by simp at h0⟩
  · simp only [BufR.read, h, if_false]
    refine ⟨hs, fun _ h0 => ?_⟩
    simp only [ReadRes.ok.injEq, List.take_eq_nil_iff] at h0
    rcases h0 with h0 | h0
    · omega
    · exact h h0

theorem BufR.readExact_settled (cap n : Nat) (acc : List UInt8) (s : BufR) (hs : s.Settled)
    (bs : List UInt8) (s' : BufR) (h : BufR.readExact cap n acc s = .ok bs s') : s'.Settled := by
  induction hw : BufR.weight s using Nat.strongRecOn generalizing n acc s with
  | _ w ih =>
    subst hw
    rw [BufR.readExact] at h
    by_cases hn : n = 0
    · simp only [hn, dite_true] at h; cases h; exact hs
    · simp only [hn, dite_false] at h
      by_cases h0 : s = ⟨[], []⟩
      · simp only [h0, dite_true] at h; cases h
      · simp only [h0, dite_false] at h
        have hlt := BufR.read_weight (cap := cap) (Nat.pos_of_ne_zero hn) s h0
        have hr := (BufR.read_settled (cap := cap) (Nat.pos_of_ne_zero hn) s hs).1
        split at h
        · rename_i c s1 heq
          rw [heq] at hlt hr
          split at h
          · cases h
          · exact ih _ hlt _ _ s1 hr h rfl
        · rename_i s1 heq
          rw [heq] at hlt hr
          exact ih _ hlt _ _ s1 hr h rfl
        · cases h

theorem BufR.takeToEnd_settled (cap : Nat) (size : Nat → Nat) (i n : Nat) (acc : List UInt8) (s : BufR)
    (hs : s.Settled) (bs : List UInt8) (s' : BufR)
    (h : BufR.takeToEnd cap size i n acc s = .ok bs s') :
    s'.Settled ∧ (s.bytes.length < n → s' = ⟨[], []⟩) := by
  induction hw : BufR.weight s using Nat.strongRecOn generalizing i n acc s with
  | _ w ih =>
    subst hw
    rw [BufR.takeToEnd] at h
    by_cases hn : n = 0
    · simp only [hn, dite_true] at h; cases h; exact ⟨hs, fun hx => by omega⟩
    · simp only [hn, dite_false] at h
      by_cases h0 : s = ⟨[], []⟩
      · simp only [h0, dite_true] at h; cases h; exact ⟨(fun e he => nomatch he : Script.Settled []), fun _ => rfl⟩
      · simp only [h0, dite_false] at h
        have hm : 0 < min n (size i + 1) := by omega
        have hlt := BufR.read_weight (cap := cap) hm s h0
        have hr := BufR.read_settled (cap := cap) hm s hs
        have hb := BufR.read_bytes (cap := cap) hm s
        split at h
        · rename_i c s1 heq
          rw [heq] at hlt hr hb
          split at h
          · rename_i hc; exact absurd (by rw [hc]) (hr.2 h0)
          · rename_i hc
            simp only [hc, if_false] at hb
            obtain ⟨i1, i2⟩ := ih _ hlt _ _ _ s1 hr.1 h rfl
            refine ⟨i1, fun hx => i2 ?_⟩
            rw [hb.2.1] at hx
            simp only [List.length_append] at hx
            omega
        · rename_i s1 heq
          rw [heq] at hlt hr hb
          obtain ⟨i1, i2⟩ := ih _ hlt _ _ _ s1 hr.1 h rfl
          exact ⟨i1, fun hx => i2 (by rw [hb.1]; exact hx)⟩
        · cases h

/-- Every program, strict or not, through a `BufReader` around a settled reader. -/
theorem Prog.runBuf_settled (t : Target) (cap : Nat) (size : Nat → Nat) (p : Prog ε α) (s : BufR)
    (hs : s.Settled) :
    match exec t s.ending p s.bytes with
    | .ok (a, rest) => ∃ s', runBuf t cap size p s = .ok (a, s') ∧ s'.bytes = rest ∧
        s'.ending = s.ending ∧ s'.Settled
    | .err x => runBuf t cap size p s = .err x
    | .panic q => runBuf t cap size p s = .panic q := by
  induction p generalizing s with
  | done o => cases o <;> simp [exec, runBuf, hs]
  | readExact n onErr k ih =>
    obtain ⟨h1, h2⟩ := BufR.readExact_spec cap n [] s
    simp only [exec, runBuf]
    by_cases hn : n ≤ s.bytes.length
    · obtain ⟨s', e1, e2, e3⟩ := h1 hn
      have hset := BufR.readExact_settled cap n [] s hs _ _ e1
      have hl : n = ([] ++ s.bytes.take n).length := by simp; omega
      rw [dif_pos hn, e1]
      simp only [dif_pos hl]
      have := ih (takeVec s.bytes hn) s' hset
      rw [e2, e3] at this
      have hv : (hl ▸ ⟨([] ++ s.bytes.take n).toArray, rfl⟩ : Vector UInt8 n)
          = takeVec s.bytes hn := by
        apply Vector.toArray_inj.mp
        simp only [takeVec, List.nil_append]
        have key : ∀ (m : Nat) (l : List UInt8) (h : m = l.length),
            (h ▸ (⟨l.toArray, rfl⟩ : Vector UInt8 l.length) : Vector UInt8 m).toArray = l.toArray := by
          intro m l h; subst h; rfl
        exact key n _ (by simpa using hl)
      rw [hv]
      exact this
    · rw [dif_neg hn, h2 (by omega)]
  | takeToEnd n onErr k ih =>
    obtain ⟨h1, h2, h3⟩ := BufR.takeToEnd_spec cap size 0 n [] s
    simp only [exec, runBuf]
    by_cases hn : n ≤ s.bytes.length
    · obtain ⟨s', e1, e2, e3⟩ := h1 hn
      have hset := (BufR.takeToEnd_settled cap size 0 n [] s hs _ _ e1).1
      rw [if_pos hn, e1]
      have := ih (s.bytes.take n) s' hset
      rw [e2, e3] at this
      simpa using this
    · rw [if_neg hn]
      cases hE : s.ending with
      | eof =>
        obtain ⟨s', e1⟩ := h3 (by omega) hE
        obtain ⟨-, hset⟩ := BufR.takeToEnd_settled cap size 0 n [] s hs _ _ e1
        rw [e1]
        have h0 := hset (by omega)
        subst h0
        exact ih s.bytes ⟨[], []⟩ (fun e he => nomatch he)
      | fail x =>
        rw [h2 (by omega) x hE]
  | alloc n k ih =>
    simp only [exec, runBuf]
    cases t.allocate n with
    | some q => simp
    | none => exact ih s hs

end Dlhn
