import Verif.Model.After
import Verif.Spec.After
import Verif.Proof.ProgGen
/-! # Facts about what a run leaves in the reader -/
namespace Dlhn

variable {ε α β : Type}

/-! ## Agreement with the functions that do not say what is left -/

theorem Script.readExactAt_eq (n : Nat) (acc : List UInt8) (s : Script) :
    Script.readExact n acc s = match Script.readExactAt n acc s with
      | (.ok bs, s') => .ok bs s'
      | (.error e, _) => .err e := by
  induction h : Script.weight s using Nat.strongRecOn generalizing n acc s with
  | _ w ih =>
    subst h
    rw [Script.readExact, Script.readExactAt]
    by_cases hn : n = 0
    · simp [hn]
    · simp only [hn, dite_false]
      by_cases hs : s = []
      · simp [hs]
      · simp only [hs, dite_false]
        have hw := Script.read_weight (Nat.pos_of_ne_zero hn) s hs
        cases hr : Script.read n s with
        | mk r s' =>
          rw [hr] at hw
          cases r with
          | ok bs =>
            simp only
            split
            · rfl
            · exact ih _ hw _ _ _ rfl
          | interrupted => exact ih _ hw _ _ _ rfl
          | fail e => rfl

theorem Script.takeToEndAt_eq (size : Nat → Nat) (i n : Nat) (acc : List UInt8) (s : Script) :
    Script.takeToEnd size i n acc s = match Script.takeToEndAt size i n acc s with
      | (.ok bs, s') => .ok bs s'
      | (.error e, _) => .err e := by
  induction h : Script.weight s using Nat.strongRecOn generalizing i n acc s with
  | _ w ih =>
    subst h
    rw [Script.takeToEnd, Script.takeToEndAt]
    by_cases hn : n = 0
    · simp [hn]
    · simp only [hn, dite_false]
      by_cases hs : s = []
      · simp [hs]
      · simp only [hs, dite_false]
        have hw := Script.read_weight (m := min n (size i + 1)) (by omega) s hs
        cases hr : Script.read (min n (size i + 1)) s with
        | mk r s' =>
          rw [hr] at hw
          cases r with
          | ok bs =>
            simp only
            split
            · rfl
            · exact ih _ hw _ _ _ _ rfl
          | interrupted => exact ih _ hw _ _ _ _ rfl
          | fail e => rfl

/-- The outcome, with the data left if it is a success. -/
def withLeft {σ : Type} : Outcome ε α × σ → Outcome ε (α × σ)
  | (.ok a, s) => .ok (a, s)
  | (.err e, _) => .err e
  | (.panic q, _) => .panic q

theorem Prog.runScriptAt_fst (t : Target) (size : Nat → Nat) (p : Prog ε α) (s : Script) :
    Prog.runScript t size p s = withLeft (Prog.runScriptAt t size p s) := by
  induction p generalizing s with
  | done o => cases o <;> rfl
  | readExact n onErr k ih =>
    rw [Prog.runScript, Prog.runScriptAt, Script.readExactAt_eq]
    cases Script.readExactAt n [] s with
    | mk r s' =>
      cases r with
      | ok bs =>
        simp only
        split
        · exact ih _ _
        · rfl
      | error e => rfl
  | takeToEnd n onErr k ih =>
    rw [Prog.runScript, Prog.runScriptAt, Script.takeToEndAt_eq]
    cases Script.takeToEndAt size 0 n [] s with
    | mk r s' =>
      cases r with
      | ok bs => exact ih _ _
      | error e => rfl
  | alloc n k ih =>
    rw [Prog.runScript, Prog.runScriptAt]
    cases t.allocate n with
    | some q => rfl
    | none => exact ih _

theorem Prog.execAt_fst (t : Target) (p : Prog ε α) (bs : List UInt8) :
    Prog.run t p bs = withLeft (Prog.execAt t p bs) := by
  rw [Prog.run]
  induction p generalizing bs with
  | done o => cases o <;> rfl
  | readExact n onErr k ih =>
    rw [Prog.exec, Prog.execAt]
    split
    · exact ih _ _
    · rfl
  | takeToEnd n onErr k ih =>
    rw [Prog.exec, Prog.execAt]
    split
    · exact ih _ _
    · exact ih _ _
  | alloc n k ih =>
    rw [Prog.exec, Prog.execAt]
    cases t.allocate n with
    | some q => rfl
    | none => exact ih _

theorem Prog.execAt_bind (t : Target) (p : Prog ε α) (f : α → Prog ε β) (bs : List UInt8) :
    Prog.execAt t (Prog.bind p f) bs = match Prog.execAt t p bs with
      | (.ok a, r) => Prog.execAt t (f a) r
      | (.err e, r) => (.err e, r)
      | (.panic q, r) => (.panic q, r) := by
  induction p generalizing bs with
  | done o => cases o <;> rfl
  | readExact n onErr k ih =>
    rw [Prog.bind, Prog.execAt, Prog.execAt]
    split
    · exact ih _ _
    · rfl
  | takeToEnd n onErr k ih =>
    rw [Prog.bind, Prog.execAt, Prog.execAt]
    split
    · exact ih _ _
    · exact ih _ _
  | alloc n k ih =>
    rw [Prog.bind, Prog.execAt, Prog.execAt]
    cases t.allocate n with
    | some q => rfl
    | none => exact ih _

theorem Prog.runScriptAt_bind (t : Target) (size : Nat → Nat) (p : Prog ε α) (f : α → Prog ε β)
    (s : Script) :
    Prog.runScriptAt t size (Prog.bind p f) s = match Prog.runScriptAt t size p s with
      | (.ok a, r) => Prog.runScriptAt t size (f a) r
      | (.err e, r) => (.err e, r)
      | (.panic q, r) => (.panic q, r) := by
  induction p generalizing s with
  | done o => cases o <;> rfl
  | readExact n onErr k ih =>
    rw [Prog.bind, Prog.runScriptAt, Prog.runScriptAt]
    cases Script.readExactAt n [] s with
    | mk r s' =>
      cases r with
      | ok bs =>
        simp only
        split
        · exact ih _ _
        · rfl
      | error e => rfl
  | takeToEnd n onErr k ih =>
    rw [Prog.bind, Prog.runScriptAt, Prog.runScriptAt]
    cases Script.takeToEndAt size 0 n [] s with
    | mk r s' =>
      cases r with
      | ok bs => exact ih _ _
      | error e => rfl
  | alloc n k ih =>
    rw [Prog.bind, Prog.runScriptAt, Prog.runScriptAt]
    cases t.allocate n with
    | some q => rfl
    | none => exact ih _

/-! ## What is left -/

theorem Script.read_after {n : Nat} (hn : 0 < n) (s : Script) :
    match Script.read n s with
    | (.ok bs, s') => s'.after = if bs = [] then (if s = [] then [] else s'.after) else s.after
    | (.interrupted, s') => s'.after = s.after
    | (.fail _, s') => s' = s.after := by
  cases s with
  | nil => simp [Script.read, Script.after]
  | cons ev s =>
    cases ev with
    | interrupted => simp [Script.read, Script.after]
    | fail e => simp [Script.read, Script.after]
    | data c =>
      by_cases hc : c.length ≤ n
      · simp only [Script.read, if_pos hc, Script.after]
        by_cases h : c = [] <;> simp [h]
      · simp only [Script.read, if_neg hc]
        have h1 : c.take n ≠ [] := by
          intro h; have := congrArg List.length h
          simp only [List.length_take, List.length_nil] at this; omega
        have h2 : c.drop n ≠ [] := by
          intro h; have := congrArg List.length h
          simp only [List.length_drop, List.length_nil] at this; omega
        have h3 : c ≠ [] := by intro h; simp [h] at hc
        simp [Script.after, h1, h2, h3]

/-- An empty result of a non-empty read is the end of file. -/
theorem Script.read_eof {n : Nat} (hn : 0 < n) {s s' : Script}
    (h : Script.read n s = (.ok [], s')) : s' = s.after := by
  cases s with
  | nil => simp only [Script.read, Prod.mk.injEq, true_and] at h; simp [Script.after, ← h]
  | cons ev s =>
    cases ev with
    | interrupted => simp [Script.read] at h
    | fail e => simp [Script.read] at h
    | data c =>
      simp only [Script.read] at h
      split at h
      · simp only [Prod.mk.injEq, ReadRes.ok.injEq] at h
        simp [Script.after, h.1, h.2]
      · rename_i hc
        simp only [Prod.mk.injEq, ReadRes.ok.injEq, List.take_eq_nil_iff] at h
        rcases h.1 with h | h
        · omega
        · simp [h] at hc

theorem Script.readExactAt_after (n : Nat) (acc : List UInt8) (s : Script) :
    match Script.readExactAt n acc s with
    | (.ok _, s') => s'.after = s.after
    | (.error _, s') => s' = s.after := by
  induction h : Script.weight s using Nat.strongRecOn generalizing n acc s with
  | _ w ih =>
    subst h
    rw [Script.readExactAt]
    by_cases hn : n = 0
    · simp [hn]
    · simp only [hn, dite_false]
      by_cases hs : s = []
      · simp [hs, Script.after]
      · simp only [hs, dite_false]
        have hw := Script.read_weight (Nat.pos_of_ne_zero hn) s hs
        have ha := Script.read_after (Nat.pos_of_ne_zero hn) s
        cases hr : Script.read n s with
        | mk r s' =>
          rw [hr] at hw ha
          cases r with
          | ok bs =>
            simp only at ha ⊢
            by_cases h0 : bs = []
            · subst h0
              rw [if_pos rfl]
              exact Script.read_eof (Nat.pos_of_ne_zero hn) hr
            · rw [if_neg h0]
              rw [if_neg h0] at ha
              have := ih _ hw (n - bs.length) (acc ++ bs) s' rfl
              rw [ha] at this
              exact this
          | interrupted =>
            simp only at ha ⊢
            have := ih _ hw n acc s' rfl
            rw [ha] at this
            exact this
          | fail e => exact ha

theorem Script.takeToEndAt_after (size : Nat → Nat) (i n : Nat) (acc : List UInt8) (s : Script) :
    match Script.takeToEndAt size i n acc s with
    | (.ok bs, s') => (bs.length = acc.length + n → s'.after = s.after) ∧
        (bs.length < acc.length + n → s' = s.after)
    | (.error _, s') => s' = s.after := by
  induction h : Script.weight s using Nat.strongRecOn generalizing i n acc s with
  | _ w ih =>
    subst h
    rw [Script.takeToEndAt]
    by_cases hn : n = 0
    · simp [hn]
    · simp only [hn, dite_false]
      by_cases hs : s = []
      · simp [hs, Script.after]
      · simp only [hs, dite_false]
        have hm : 0 < min n (size i + 1) := by omega
        have hw := Script.read_weight hm s hs
        have hb := Script.read_bytes hm s
        have ha := Script.read_after hm s
        cases hr : Script.read (min n (size i + 1)) s with
        | mk r s' =>
          rw [hr] at hw ha hb
          cases r with
          | ok bs =>
            simp only at ha hb ⊢
            by_cases h0 : bs = []
            · subst h0
              rw [if_pos rfl]
              exact ⟨fun h => by omega, fun _ => Script.read_eof hm hr⟩
            · rw [if_neg h0]
              rw [if_neg h0] at ha hb
              have hl := hb.1
              have := ih _ hw (i + 1) (n - bs.length) (acc ++ bs) s' rfl
              rw [ha] at this
              have hx : (acc ++ bs).length + (n - bs.length) = acc.length + n := by
                rw [List.length_append]; omega
              rw [hx] at this
              exact this
          | interrupted =>
            simp only at ha ⊢
            have := ih _ hw (i + 1) n acc s' rfl
            rw [ha] at this
            exact this
          | fail e => exact ha

theorem Script.readExactAt_enough {n : Nat} {s : Script} (h : n ≤ s.bytes.length) :
    ∃ s', Script.readExactAt n [] s = (.ok (s.bytes.take n), s') ∧ s'.bytes = s.bytes.drop n ∧
      s'.ending = s.ending ∧ s'.after = s.after := by
  obtain ⟨s', h1, h2, h3⟩ := (Script.readExact_spec n [] s).1 h
  have ha := Script.readExactAt_after n [] s
  rw [Script.readExactAt_eq] at h1
  cases hr : Script.readExactAt n [] s with
  | mk r s'' =>
    rw [hr] at h1 ha
    cases r with
    | ok bs =>
      simp only [IoResult.ok.injEq, List.nil_append] at h1
      obtain ⟨rfl, rfl⟩ := h1
      exact ⟨_, rfl, h2, h3, ha⟩
    | error e => simp at h1

theorem Script.readExactAt_short {n : Nat} {s : Script} (h : s.bytes.length < n) :
    Script.readExactAt n [] s = (.error s.ending.shortErr, s.after) := by
  have h1 := (Script.readExact_spec n [] s).2 h
  have ha := Script.readExactAt_after n [] s
  rw [Script.readExactAt_eq] at h1
  cases hr : Script.readExactAt n [] s with
  | mk r s'' =>
    rw [hr] at h1 ha
    cases r with
    | ok bs => simp at h1
    | error e =>
      simp only [IoResult.err.injEq] at h1
      simp only at ha
      rw [h1, ha]

theorem Script.takeToEndAt_enough {size : Nat → Nat} {n : Nat} {s : Script}
    (h : n ≤ s.bytes.length) :
    ∃ s', Script.takeToEndAt size 0 n [] s = (.ok (s.bytes.take n), s') ∧
      s'.bytes = s.bytes.drop n ∧ s'.ending = s.ending ∧ s'.after = s.after := by
  obtain ⟨s', h1, h2, h3⟩ := (Script.takeToEnd_spec size 0 n [] s).1 h
  have ha := Script.takeToEndAt_after size 0 n [] s
  rw [Script.takeToEndAt_eq] at h1
  cases hr : Script.takeToEndAt size 0 n [] s with
  | mk r s'' =>
    rw [hr] at h1 ha
    cases r with
    | ok bs =>
      simp only [IoResult.ok.injEq, List.nil_append] at h1
      obtain ⟨rfl, rfl⟩ := h1
      exact ⟨_, rfl, h2, h3, ha.1 (by simp; omega)⟩
    | error e => simp at h1

theorem Script.takeToEndAt_short {size : Nat → Nat} {n : Nat} {s : Script}
    (h : s.bytes.length < n) :
    Script.takeToEndAt size 0 n [] s = (match s.ending with
      | .eof => .ok s.bytes
      | .fail e => .error e, s.after) := by
  obtain ⟨-, h2, h3⟩ := Script.takeToEnd_spec size 0 n [] s
  have ha := Script.takeToEndAt_after size 0 n [] s
  rw [Script.takeToEndAt_eq] at h2 h3
  cases hr : Script.takeToEndAt size 0 n [] s with
  | mk r s'' =>
    rw [hr] at h2 h3 ha
    cases hE : s.ending with
    | eof =>
      obtain ⟨s', h3⟩ := h3 h hE
      cases r with
      | ok bs =>
        simp only [IoResult.ok.injEq, List.nil_append] at h3
        obtain ⟨rfl, rfl⟩ := h3
        simp only
        rw [ha.2 (by simpa using h)]
      | error e => simp at h3
    | fail e =>
      have h2 := h2 h e hE
      cases r with
      | ok bs => simp at h2
      | error e =>
        simp only [IoResult.err.injEq] at h2
        simp only at ha ⊢
        rw [h2, ha]

/-! ## Runs for which the data suffice -/

/-- The result and the data left if the data suffice for every read. -/
def Prog.complete {ε α : Type} (t : Target) :
    Prog ε α → List UInt8 → Option (Outcome ε α × List UInt8)
  | .done o, bs => some (o, bs)
  | .readExact n _ k, bs =>
    if h : n ≤ bs.length then complete t (k (takeVec bs h)) (bs.drop n) else none
  | .takeToEnd n _ k, bs =>
    if n ≤ bs.length then complete t (k (bs.take n)) (bs.drop n) else none
  | .alloc n k, bs =>
    match t.allocate n with
    | some p => some (.panic p, bs)
    | none => complete t k bs

theorem takeVec_of_take {n : Nat} {bs cs : List UInt8} (h : n ≤ bs.length) (h' : n ≤ cs.length)
    (he : bs.take n = cs.take n) : takeVec bs h = takeVec cs h' := by
  simp only [takeVec, he]

theorem Prog.complete_split (t : Target) {p : Prog ε α} {bs rest : List UInt8} {o : Outcome ε α}
    (h : p.complete t bs = some (o, rest)) :
    ∃ used, bs = used ++ rest ∧ (∀ rest', p.complete t (used ++ rest') = some (o, rest')) ∧
      ∀ pre, pre <+: used → pre ≠ used → p.complete t pre = none := by
  induction p generalizing bs with
  | done o' =>
    simp only [Prog.complete, Option.some.injEq, Prod.mk.injEq] at h
    obtain ⟨rfl, rfl⟩ := h
    exact ⟨[], rfl, fun _ => rfl, fun pre h1 h2 => absurd (List.prefix_nil.mp h1) h2⟩
  | readExact n onErr k ih =>
    rw [Prog.complete] at h
    split at h
    · rename_i hn
      obtain ⟨used, h1, h2, h3⟩ := ih _ h
      have hl : (bs.take n).length = n := by simp; omega
      refine ⟨bs.take n ++ used, ?_, fun rest' => ?_, fun pre hp hne => ?_⟩
      · rw [List.append_assoc, ← h1, List.take_append_drop]
      · rw [List.append_assoc, Prog.complete, dif_pos (by simp; omega), List.drop_left' hl]
        rw [takeVec_of_take _ hn (by rw [List.take_left' hl]), h2]
      · rw [Prog.complete]
        split
        · rename_i hpn
          obtain ⟨suf, hs⟩ := hp
          have ht : pre.take n = bs.take n := by
            have := congrArg (List.take n) hs
            rwa [List.take_append_of_le_length hpn, List.take_left' hl] at this
          have hd : pre.drop n ++ suf = used := by
            have := congrArg (List.drop n) hs
            rwa [List.drop_append_of_le_length hpn, List.drop_left' hl] at this
          rw [takeVec_of_take _ hn ht]
          refine h3 _ ⟨suf, hd⟩ fun he => hne ?_
          rw [← List.take_append_drop n pre, ht, he]
        · rfl
    · exact absurd h (by simp)
  | takeToEnd n onErr k ih =>
    rw [Prog.complete] at h
    split at h
    · rename_i hn
      obtain ⟨used, h1, h2, h3⟩ := ih _ h
      have hl : (bs.take n).length = n := by simp; omega
      refine ⟨bs.take n ++ used, ?_, fun rest' => ?_, fun pre hp hne => ?_⟩
      · rw [List.append_assoc, ← h1, List.take_append_drop]
      · rw [Prog.complete, if_pos (by simp; omega)]
        rw [List.append_assoc, List.drop_left' hl, List.take_left' hl, h2]
      · rw [Prog.complete]
        split
        · rename_i hpn
          obtain ⟨suf, hs⟩ := hp
          have ht : pre.take n = bs.take n := by
            have := congrArg (List.take n) hs
            rwa [List.take_append_of_le_length hpn, List.take_left' hl] at this
          have hd : pre.drop n ++ suf = used := by
            have := congrArg (List.drop n) hs
            rwa [List.drop_append_of_le_length hpn, List.drop_left' hl] at this
          rw [ht]
          refine h3 _ ⟨suf, hd⟩ fun he => hne ?_
          rw [← List.take_append_drop n pre, ht, he]
        · rfl
    · exact absurd h (by simp)
  | alloc n k ih =>
    cases ha : t.allocate n with
    | some q =>
      rw [Prog.complete, ha] at h
      simp only [Option.some.injEq, Prod.mk.injEq] at h
      obtain ⟨rfl, rfl⟩ := h
      refine ⟨[], rfl, fun _ => ?_, fun pre h1 h2 => absurd (List.prefix_nil.mp h1) h2⟩
      rw [Prog.complete, ha]; rfl
    | none =>
      rw [Prog.complete, ha] at h
      obtain ⟨used, h1, h2, h3⟩ := ih h
      refine ⟨used, h1, fun rest' => ?_, fun pre hp hne => ?_⟩
      · rw [Prog.complete, ha]; exact h2 rest'
      · rw [Prog.complete, ha]; exact h3 pre hp hne

theorem Prog.complete_none (t : Target) {p : Prog ε α} {bs pre : List UInt8}
    (h : p.complete t bs = none) (hp : pre <+: bs) : p.complete t pre = none := by
  cases hc : p.complete t pre with
  | none => rfl
  | some r =>
    obtain ⟨o, rest⟩ := r
    obtain ⟨used, h1, h2, -⟩ := Prog.complete_split t hc
    obtain ⟨suf, rfl⟩ := hp
    rw [h1, List.append_assoc, h2] at h
    exact absurd h (by simp)

theorem Prog.complete_runScriptAt {e : IoErr → ε} (t : Target) (size : Nat → Nat) {p : Prog ε α}
    (hp : Strict e p) (s : Script) :
    match p.complete t s.bytes with
    | some (o, rest) => ∃ s', p.runScriptAt t size s = (o, s') ∧ s'.bytes = rest ∧
        s'.ending = s.ending ∧ s'.after = s.after
    | none => p.runScriptAt t size s = (.err (e s.ending.shortErr), s.after) := by
  induction p generalizing s with
  | done o => exact ⟨s, rfl, rfl, rfl, rfl⟩
  | readExact n onErr k ih =>
    rw [Prog.complete, Prog.runScriptAt]
    split
    · rename_i hc
      split at hc
      · rename_i hn
        obtain ⟨s', e1, e2, e3, e4⟩ := Script.readExactAt_enough hn
        have hl : n = (s.bytes.take n).length := by simp; omega
        rw [e1]
        simp only [dif_pos hl]
        have := ih (takeVec s.bytes hn) (hp.2 _) s'
        rw [e2, hc, e3, e4] at this
        have hv : (hl ▸ ⟨(s.bytes.take n).toArray, rfl⟩ : Vector UInt8 n)
            = takeVec s.bytes hn := by
          apply Vector.toArray_inj.mp
          simp only [takeVec]
          have key : ∀ (m : Nat) (l : List UInt8) (h : m = l.length),
              (h ▸ (⟨l.toArray, rfl⟩ : Vector UInt8 l.length) : Vector UInt8 m).toArray
                = l.toArray := by
            intro m l h; subst h; rfl
          exact key n _ (by simpa using hl)
        rw [hv]
        exact this
      · exact absurd hc (by simp)
    · rename_i hc
      split at hc
      · rename_i hn
        obtain ⟨s', e1, e2, e3, e4⟩ := Script.readExactAt_enough hn
        have hl : n = (s.bytes.take n).length := by simp; omega
        rw [e1]
        simp only [dif_pos hl]
        have := ih (takeVec s.bytes hn) (hp.2 _) s'
        rw [e2, hc, e3, e4] at this
        have hv : (hl ▸ ⟨(s.bytes.take n).toArray, rfl⟩ : Vector UInt8 n)
            = takeVec s.bytes hn := by
          apply Vector.toArray_inj.mp
          simp only [takeVec]
          have key : ∀ (m : Nat) (l : List UInt8) (h : m = l.length),
              (h ▸ (⟨l.toArray, rfl⟩ : Vector UInt8 l.length) : Vector UInt8 m).toArray
                = l.toArray := by
            intro m l h; subst h; rfl
          exact key n _ (by simpa using hl)
        rw [hv]
        exact this
      · rename_i hn
        rw [Script.readExactAt_short (by omega)]
        simp only [hp.1]
  | takeToEnd n onErr k ih =>
    rw [Prog.complete, Prog.runScriptAt]
    by_cases hn : n ≤ s.bytes.length
    · obtain ⟨s', e1, e2, e3, e4⟩ := Script.takeToEndAt_enough (size := size) hn
      rw [if_pos hn, e1]
      have := ih (s.bytes.take n) (hp.2.2 _) s'
      rw [e2, e3, e4] at this
      exact this
    · rw [if_neg hn, Script.takeToEndAt_short (by omega)]
      cases hE : s.ending with
      | eof => simp only [hp.2.1 s.bytes (by omega), Prog.runScriptAt, Ending.shortErr]
      | fail x => simp only [hp.1, Ending.shortErr]
  | alloc n k ih =>
    rw [Prog.complete, Prog.runScriptAt]
    cases t.allocate n with
    | some q => exact ⟨s, rfl, rfl, rfl, rfl⟩
    | none => exact ih hp s

theorem Prog.complete_execAt {e : IoErr → ε} (t : Target) {p : Prog ε α} (hp : Strict e p)
    (bs : List UInt8) :
    p.execAt t bs = (p.complete t bs).getD (.err (e .unexpectedEof), []) := by
  induction p generalizing bs with
  | done o => rfl
  | readExact n onErr k ih =>
    rw [Prog.complete, Prog.execAt]
    split
    · exact ih _ (hp.2 _) _
    · simp [hp.1]
  | takeToEnd n onErr k ih =>
    rw [Prog.complete, Prog.execAt]
    split
    · exact ih _ (hp.2.2 _) _
    · rw [hp.2.1 bs (by omega)]; rfl
  | alloc n k ih =>
    rw [Prog.complete, Prog.execAt]
    cases t.allocate n with
    | some q => rfl
    | none => exact ih hp bs

/-- The bytes of a clean reader are followed by the end of file, for good. -/
theorem Script.Clean.end {s : Script} (h : s.Clean) : s.ending = .eof ∧ s.after = [] := by
  induction s with
  | nil => exact ⟨rfl, rfl⟩
  | cons ev s ih =>
    have ih := ih fun ev hev => h ev (List.mem_cons_of_mem _ hev)
    rcases h ev List.mem_cons_self with rfl | ⟨c, hc, rfl⟩
    · exact ih
    · simp only [Script.ending, Script.after, if_neg hc]; exact ih

theorem Prog.stopsAt {e : IoErr → ε} (t : Target) (size : Nat → Nat) {p : Prog ε α}
    (hp : Strict e p) (s : Script) :
    StopsAt t e p s (p.runScriptAt t size s).1 (p.runScriptAt t size s).2 := by
  have h := Prog.complete_runScriptAt t size hp s
  cases hc : p.complete t s.bytes with
  | some r =>
    obtain ⟨o, rest⟩ := r
    rw [hc] at h
    obtain ⟨s', h1, h2, h3, -⟩ := h
    obtain ⟨used, u1, u2, u3⟩ := Prog.complete_split t hc
    rw [h1]
    refine .inl ⟨used, by rw [u1, h2], h3, fun size' r more hr => ?_, fun size' r hr hne => ?_⟩
    · have h' := Prog.complete_runScriptAt t size' hp r
      rw [hr, u2] at h'
      obtain ⟨r', g1, g2, g3, -⟩ := h'
      exact ⟨r', g1, g2, g3⟩
    · have h' := Prog.complete_runScriptAt t size' hp r
      rw [u3 _ hr hne] at h'
      exact h'
  | none =>
    rw [hc] at h
    rw [h]
    refine .inr ⟨rfl, rfl, fun size' r hr => ?_⟩
    have h' := Prog.complete_runScriptAt t size' hp r
    rw [Prog.complete_none t hc hr] at h'
    exact h'

/-- On the bytes of a success, what is left is the same. -/
theorem Prog.execAt_of_run {t : Target} {p : Prog ε α} {bs rest : List UInt8} {a : α}
    (h : Prog.run t p bs = .ok (a, rest)) : p.execAt t bs = (.ok a, rest) := by
  rw [Prog.execAt_fst] at h
  cases hx : p.execAt t bs with
  | mk o r =>
    rw [hx] at h
    cases o <;> simp_all [withLeft]

/-- A clean reader is left as its data are. -/
theorem Prog.runScriptAt_clean {e : IoErr → ε} (t : Target) (size : Nat → Nat) {p : Prog ε α}
    (hp : Strict e p) {s : Script} (hs : s.Clean) :
    ((p.runScriptAt t size s).1, (p.runScriptAt t size s).2.bytes) = p.execAt t s.bytes := by
  have h := Prog.complete_runScriptAt t size hp s
  rw [Prog.complete_execAt t hp]
  cases hc : p.complete t s.bytes with
  | some r =>
    obtain ⟨o, rest⟩ := r
    rw [hc] at h
    obtain ⟨s', h1, h2, -⟩ := h
    rw [h1]; simp [h2]
  | none =>
    rw [hc] at h
    rw [h, hs.end.1, hs.end.2]
    rfl

theorem Script.Clean.tail {ev : Event} {s : Script} (h : Script.Clean (ev :: s)) : s.Clean :=
  fun e he => h e (List.mem_cons_of_mem _ he)

theorem Script.Clean.read {s : Script} (h : s.Clean) (n : Nat) :
    (Script.read n s).2.Clean := by
  cases s with
  | nil => exact h
  | cons ev s =>
    rcases h ev List.mem_cons_self with rfl | ⟨c, hc, rfl⟩
    · exact h.tail
    · rw [Script.read]
      split
      · exact h.tail
      · rename_i hl
        intro ev he
        rcases List.mem_cons.mp he with rfl | he
        · refine .inr ⟨_, ?_, rfl⟩
          intro h0
          have := congrArg List.length h0
          simp only [List.length_drop, List.length_nil] at this
          omega
        · exact h ev (List.mem_cons_of_mem _ he)

theorem Script.Clean.readExactAt {s : Script} (h : s.Clean) (n : Nat) (acc : List UInt8) :
    (Script.readExactAt n acc s).2.Clean := by
  induction hw : Script.weight s using Nat.strongRecOn generalizing n acc s with
  | _ w ih =>
    subst hw
    rw [Script.readExactAt]
    by_cases hn : n = 0
    · simpa [hn] using h
    · simp only [hn, dite_false]
      by_cases hs : s = []
      · rw [dif_pos hs]; exact fun _ h => absurd h List.not_mem_nil
      · simp only [hs, dite_false]
        have hw := Script.read_weight (Nat.pos_of_ne_zero hn) s hs
        have hc := h.read n
        cases hr : Script.read n s with
        | mk r s' =>
          rw [hr] at hw hc
          cases r with
          | ok bs =>
            simp only
            split
            · exact hc
            · exact ih _ hw hc _ _ rfl
          | interrupted => exact ih _ hw hc _ _ rfl
          | fail e => exact hc

theorem Script.Clean.takeToEndAt {s : Script} (h : s.Clean) (size : Nat → Nat) (i n : Nat)
    (acc : List UInt8) : (Script.takeToEndAt size i n acc s).2.Clean := by
  induction hw : Script.weight s using Nat.strongRecOn generalizing i n acc s with
  | _ w ih =>
    subst hw
    rw [Script.takeToEndAt]
    by_cases hn : n = 0
    · simpa [hn] using h
    · simp only [hn, dite_false]
      by_cases hs : s = []
      · rw [dif_pos hs]; exact fun _ h => absurd h List.not_mem_nil
      · simp only [hs, dite_false]
        have hm : 0 < min n (size i + 1) := by omega
        have hw := Script.read_weight hm s hs
        have hc := h.read (min n (size i + 1))
        cases hr : Script.read (min n (size i + 1)) s with
        | mk r s' =>
          rw [hr] at hw hc
          cases r with
          | ok bs =>
            simp only
            split
            · exact hc
            · exact ih _ hw hc _ _ _ rfl
          | interrupted => exact ih _ hw hc _ _ _ rfl
          | fail e => exact hc

theorem Script.Clean.runScriptAt {s : Script} (h : s.Clean) (t : Target) (size : Nat → Nat)
    (p : Prog ε α) : (p.runScriptAt t size s).2.Clean := by
  induction p generalizing s with
  | done o => exact h
  | readExact n onErr k ih =>
    rw [Prog.runScriptAt]
    have hc := h.readExactAt n []
    cases hr : Script.readExactAt n [] s with
    | mk r s' =>
      rw [hr] at hc
      cases r with
      | ok bs =>
        simp only
        split
        · exact ih _ hc
        · exact hc
      | error e => exact hc
  | takeToEnd n onErr k ih =>
    rw [Prog.runScriptAt]
    have hc := h.takeToEndAt size 0 n []
    cases hr : Script.takeToEndAt size 0 n [] s with
    | mk r s' =>
      rw [hr] at hc
      cases r with
      | ok bs => exact ih _ hc
      | error e => exact hc
  | alloc n k ih =>
    rw [Prog.runScriptAt]
    cases t.allocate n with
    | some q => exact h
    | none => exact ih h

end Dlhn
