import Verif.Spec.Adapters
import Verif.Proof.AnyReader
import Verif.Proof.Prog
/-! # Facts about readers built with adapters -/
namespace Dlhn

variable {ε α : Type}

/-- What a `read` call does to the data still to come. -/
def Rdr.StepSpec (m : Nat) (r : Rdr) (x : ReadRes) (r' : Rdr) : Prop :=
  match x with
  | .ok bs => bs.length ≤ m ∧ (if bs = [] then r.delivers = ([], .eof)
      else r.delivers = (bs ++ r'.delivers.1, r'.delivers.2))
  | .interrupted => r'.delivers = r.delivers
  | .fail e => r.delivers = ([], .fail e)

theorem Rdr.read_spec (r : Rdr) : ∀ {m : Nat}, 0 < m → ∀ {x : ReadRes} {r' : Rdr},
    Rdr.read m r = (x, r') → Rdr.StepSpec m r x r' := by
  induction r with
  | base s =>
    intro m hm x r' h
    have hb := Script.read_bytes hm s
    rw [Rdr.read] at h
    rcases hr : Script.read m s with ⟨y, s'⟩
    rw [hr] at h hb
    simp only [Prod.mk.injEq] at h
    obtain ⟨rfl, rfl⟩ := h
    cases y with
    | ok bs =>
      simp only [StepSpec, delivers] at hb ⊢
      by_cases h0 : bs = []
      · simp_all
      · simp_all
    | interrupted => simp only [StepSpec, delivers] at hb ⊢; rw [hb.1, hb.2]
    | fail e => simp only [StepSpec, delivers] at hb ⊢; rw [hb.1, hb.2]
  | take limit r ih =>
    intro m hm x r' h
    rw [Rdr.read] at h
    by_cases hl : limit = 0
    · subst hl
      simp only [if_true, Prod.mk.injEq] at h
      obtain ⟨rfl, rfl⟩ := h
      simp [StepSpec, delivers]
    · simp only [hl, if_false] at h
      have hmin : 0 < min m limit := by omega
      rcases hr : Rdr.read (min m limit) r with ⟨y, r1⟩
      have i := ih hmin hr
      rw [hr] at h
      cases y with
      | ok bs =>
        simp only [Prod.mk.injEq] at h
        obtain ⟨rfl, rfl⟩ := h
        simp only [StepSpec] at i ⊢
        obtain ⟨i1, i2⟩ := i
        refine ⟨by omega, ?_⟩
        by_cases h0 : bs = []
        · simp only [h0, if_true] at i2 ⊢
          simp [delivers, i2, hl]
        · simp only [h0, if_false] at i2 ⊢
          simp only [delivers, i2, List.length_append]
          rw [List.take_append, List.take_of_length_le (by omega)]
          congr 1
          by_cases hx : limit ≤ bs.length + r1.delivers.1.length
          · rw [if_pos hx, if_pos (by omega)]
          · rw [if_neg hx, if_neg (by omega)]
      | interrupted =>
        simp only [Prod.mk.injEq] at h
        obtain ⟨rfl, rfl⟩ := h
        simp only [StepSpec] at i ⊢
        simp only [delivers, i]
      | fail e =>
        simp only [Prod.mk.injEq] at h
        obtain ⟨rfl, rfl⟩ := h
        simp only [StepSpec] at i ⊢
        simp [delivers, i, hl]
  | chain d a b iha ihb =>
    intro m hm x r' h
    cases d with
    | true =>
      rw [Rdr.read] at h
      rcases hr : Rdr.read m b with ⟨y, b1⟩
      have i := ihb hm hr
      rw [hr] at h
      simp only [Prod.mk.injEq] at h
      obtain ⟨rfl, rfl⟩ := h
      cases y <;> simpa [StepSpec, delivers] using i
    | false =>
      rw [Rdr.read] at h
      rcases hra : Rdr.read m a with ⟨ya, a1⟩
      have ia := iha hm hra
      rw [hra] at h
      cases ya with
      | ok bs =>
        simp only [StepSpec] at ia
        obtain ⟨i1, i2⟩ := ia
        by_cases h0 : bs = []
        · simp only [h0, if_true] at i2
          have hne : m ≠ 0 := by omega
          simp only [h0, hne, ne_eq, not_false_eq_true, and_self, if_true] at h
          rcases hr : Rdr.read m b with ⟨y, b1⟩
          have i := ihb hm hr
          rw [hr] at h
          simp only [Prod.mk.injEq] at h
          obtain ⟨rfl, rfl⟩ := h
          have hd : (Rdr.chain false a b).delivers = b.delivers := by
            simp [delivers, i2]
          cases y <;> simpa [StepSpec, delivers, i2, Prod.ext_iff] using i
        · simp only [h0, if_false, false_and] at i2 h
          simp only [Prod.mk.injEq] at h
          obtain ⟨rfl, rfl⟩ := h
          simp only [StepSpec, h0, if_false]
          refine ⟨i1, ?_⟩
          simp only [delivers, i2]
          rcases hd : a1.delivers with ⟨ba, _ | e⟩ <;> simp
      | interrupted =>
        simp only [Prod.mk.injEq] at h
        obtain ⟨rfl, rfl⟩ := h
        simp only [StepSpec] at ia ⊢
        simp only [delivers, ia]
      | fail e =>
        simp only [Prod.mk.injEq] at h
        obtain ⟨rfl, rfl⟩ := h
        simp only [StepSpec] at ia ⊢
        simp [delivers, ia]
  | buffered cap ahead r ih =>
    intro m hm x r' h
    rw [Rdr.read] at h
    by_cases ha : ahead = []
    · subst ha
      simp only [if_true] at h
      by_cases hc : cap ≤ m
      · simp only [hc, if_true] at h
        rcases hr : Rdr.read m r with ⟨y, r1⟩
        have i := ih hm hr
        rw [hr] at h
        simp only [Prod.mk.injEq] at h
        obtain ⟨rfl, rfl⟩ := h
        cases y <;> simpa [StepSpec, delivers, Prod.ext_iff] using i
      · simp only [hc, if_false] at h
        have hcap : 0 < cap := by omega
        rcases hr : Rdr.read cap r with ⟨y, r1⟩
        have i := ih hcap hr
        rw [hr] at h
        cases y with
        | ok bs =>
          simp only [Prod.mk.injEq] at h
          obtain ⟨rfl, rfl⟩ := h
          simp only [StepSpec] at i ⊢
          refine ⟨by simp; omega, ?_⟩
          by_cases h0 : bs = []
          · simp [h0] at i ⊢; simp [delivers, i]
          · have h1 : bs.take m ≠ [] := by
              intro hx; rw [List.take_eq_nil_iff] at hx; simp [h0] at hx; omega
            simp only [h0, h1, if_false] at i ⊢
            simp only [delivers, i.2, List.nil_append]
            rw [← List.append_assoc, List.take_append_drop]
        | interrupted =>
          simp only [Prod.mk.injEq] at h
          obtain ⟨rfl, rfl⟩ := h
          simpa [StepSpec, delivers, Prod.ext_iff] using i
        | fail e =>
          simp only [Prod.mk.injEq] at h
          obtain ⟨rfl, rfl⟩ := h
          simpa [StepSpec, delivers, Prod.ext_iff] using i
    · simp only [ha, if_false, Prod.mk.injEq] at h
      obtain ⟨rfl, rfl⟩ := h
      have h1 : ahead.take m ≠ [] := by
        intro hx; rw [List.take_eq_nil_iff] at hx; simp [ha] at hx; omega
      simp only [StepSpec, h1, if_false]
      refine ⟨by simp; omega, ?_⟩
      simp only [delivers]
      rw [← List.append_assoc, List.take_append_drop]

/-- Also a `read` with an empty buffer returns no more than fits. -/
theorem Rdr.read_len (r : Rdr) : ∀ {m : Nat} {bs : List UInt8} {r' : Rdr},
    Rdr.read m r = (.ok bs, r') → bs.length ≤ m := by
  intro m bs r' h
  by_cases hm : 0 < m
  · exact (Rdr.read_spec r hm h).1
  · have hm : m = 0 := by omega
    subst hm
    induction r generalizing bs r' with
    | base s =>
      rw [Rdr.read] at h
      rcases hr : Script.read 0 s with ⟨y, s'⟩
      rw [hr] at h
      simp only [Prod.mk.injEq] at h
      obtain ⟨rfl, rfl⟩ := h
      cases s with
      | nil => simp [Script.read] at hr; simp [← hr.1]
      | cons ev s =>
        cases ev with
        | data c =>
          rw [Script.read] at hr
          split at hr
          · rename_i hc; simp at hr; rw [← hr.1]; exact hc
          · simp at hr; simp [hr.1]
        | interrupted => simp [Script.read] at hr
        | fail e => simp [Script.read] at hr
    | take limit r ih =>
      rw [Rdr.read] at h
      split at h
      · simp at h; simp [h.1]
      · rw [Nat.zero_min] at h
        rcases hr : Rdr.read 0 r with ⟨y, r1⟩
        rw [hr] at h
        cases y with
        | ok cs => simp at h; rw [← h.1]; exact ih hr
        | interrupted => simp at h
        | fail e => simp at h
    | chain d a b iha ihb =>
      cases d with
      | true =>
        rw [Rdr.read] at h
        rcases hr : Rdr.read 0 b with ⟨y, b1⟩
        rw [hr] at h
        simp at h
        rw [h.1] at hr
        exact ihb hr
      | false =>
        rw [Rdr.read] at h
        rcases hr : Rdr.read 0 a with ⟨y, a1⟩
        rw [hr] at h
        cases y with
        | ok cs => simp at h; rw [← h.1]; exact iha hr
        | interrupted => simp at h
        | fail e => simp at h
    | buffered cap ahead r ih =>
      rw [Rdr.read] at h
      split at h
      · split at h
        · rcases hr : Rdr.read 0 r with ⟨y, r1⟩
          rw [hr] at h
          simp at h
          rw [h.1] at hr
          exact ih hr
        · rcases hr : Rdr.read cap r with ⟨y, r1⟩
          rw [hr] at h
          cases y with
          | ok cs => simp at h; simp [h.1]
          | interrupted => simp at h
          | fail e => simp at h
      · simp at h; simp [h.1]

theorem Rdr.lawful : Rdr.step.Lawful := fun r _ _ _ h => Rdr.read_len r h

/-- Interruptions still to come. -/
def Rdr.patience : Rdr → Nat
  | .base s => s.weight
  | .take _ r => r.patience
  | .chain false a b => a.patience + b.patience
  | .chain true _ b => b.patience
  | .buffered _ _ r => r.patience

theorem Rdr.read_interrupted (r : Rdr) : ∀ {m : Nat} {r' : Rdr},
    Rdr.read m r = (.interrupted, r') → r'.patience < r.patience := by
  induction r with
  | base s =>
    intro m r' h
    rw [Rdr.read] at h
    cases s with
    | nil => simp [Script.read] at h
    | cons ev s =>
      cases ev with
      | data c =>
        rcases hr : Script.read m (.data c :: s) with ⟨y, s'⟩
        rw [hr] at h
        simp at h
        rw [h.1, Script.read] at hr
        split at hr <;> simp at hr
      | interrupted =>
        simp [Script.read] at h
        rw [← h]
        simp [patience, Script.weight]
      | fail e => simp [Script.read] at h
  | take limit r ih =>
    intro m r' h
    rw [Rdr.read] at h
    split at h
    · simp at h
    · rcases hr : Rdr.read (min m limit) r with ⟨y, r1⟩
      rw [hr] at h
      cases y with
      | ok cs => simp at h
      | interrupted => simp at h; rw [← h]; simp only [patience]; exact ih hr
      | fail e => simp at h
  | chain d a b iha ihb =>
    intro m r' h
    cases d with
    | true =>
      rw [Rdr.read] at h
      rcases hr : Rdr.read m b with ⟨y, b1⟩
      rw [hr] at h
      simp at h
      rw [h.1] at hr
      rw [← h.2]
      simp only [patience]
      exact ihb hr
    | false =>
      rw [Rdr.read] at h
      rcases hra : Rdr.read m a with ⟨y, a1⟩
      rw [hra] at h
      cases y with
      | ok cs =>
        simp only at h
        split at h
        · rcases hr : Rdr.read m b with ⟨y, b1⟩
          rw [hr] at h
          simp at h
          rw [h.1] at hr
          have := ihb hr
          rw [← h.2]
          simp only [patience]
          omega
        · simp at h
      | interrupted =>
        simp at h
        have := iha hra
        rw [← h]
        simp only [patience]
        omega
      | fail e => simp at h
  | buffered cap ahead r ih =>
    intro m r' h
    rw [Rdr.read] at h
    split at h
    · split at h
      · rcases hr : Rdr.read m r with ⟨y, r1⟩
        rw [hr] at h
        simp at h
        rw [h.1] at hr
        rw [← h.2]
        simp only [patience]
        exact ih hr
      · rcases hr : Rdr.read cap r with ⟨y, r1⟩
        rw [hr] at h
        cases y with
        | ok cs => simp at h
        | interrupted => simp at h; rw [← h]; simp only [patience]; exact ih hr
        | fail e => simp at h
    · simp at h

theorem Rdr.live : Rdr.step.Live where
  answers _ _ _ := ⟨_, _, rfl⟩
  calm := ⟨Rdr.patience, fun r _ _ h => Rdr.read_interrupted r h⟩

/-! ## What a run consumes -/

/-- The data before and after calls with these answers. -/
def Consumes (r : Rdr) (cs : List ReadRes) (r' : Rdr) : Prop :=
  (Running cs → r.delivers = (handed cs ++ r'.delivers.1, r'.delivers.2)) ∧
  (∀ x, Stopped cs x → r.delivers = (handed cs, x)) ∧ before cs <+: r.delivers.1

theorem Stopped.of_cons {c : ReadRes} {cs : List ReadRes} {x : Ending} (hs : Stopped (c :: cs) x) :
    (cs = [] ∧ c.ends = some x) ∨ (c.ends = none ∧ Stopped cs x) := by
  obtain ⟨cs0, d, h0, h1, h2⟩ := hs
  cases cs0 with
  | nil => simp at h0; exact .inl ⟨h0.2, by rw [h0.1]; exact h2⟩
  | cons e cs0 =>
    simp at h0
    refine .inr ⟨by rw [h0.1]; exact h1 e (by simp), cs0, d, h0.2, ?_, h2⟩
    exact fun c hc => h1 c (List.mem_cons_of_mem _ hc)

theorem Stopped.nil {x : Ending} (h : Stopped [] x) : False := by
  obtain ⟨cs0, d, h0, -⟩ := h
  simp at h0

theorem Consumes.nil (r : Rdr) : Consumes r [] r :=
  ⟨fun _ => by simp [handed], fun _ h => h.nil.elim, by simp [before]⟩

theorem Consumes.cons {m : Nat} (hm : 0 < m) {r r' r'' : Rdr} {c : ReadRes} {cs : List ReadRes}
    (h : Rdr.step r m c r') (hs : Consumes r' cs r'') : Consumes r (c :: cs) r'' := by
  have h := Rdr.read_spec r hm h
  cases c with
  | ok bs =>
    by_cases h0 : bs = []
    · subst h0
      simp only [Rdr.StepSpec, if_true] at h
      refine ⟨fun hr => ?_, fun x hx => ?_, by simp [before, ReadRes.ends]⟩
      · have := hr (.ok []) (by simp)
        simp [ReadRes.ends] at this
      · rcases hx.of_cons with ⟨h0, h1⟩ | ⟨hx, -⟩
        · simp [ReadRes.ends] at h1
          simp [h.2, handed, h0, h1]
        · simp [ReadRes.ends] at hx
    · simp only [Rdr.StepSpec, h0, if_false] at h
      refine ⟨fun hr => ?_, fun x hx => ?_, by
        rw [before, if_pos (ends_ok h0), h.2]
        simpa [handed, List.prefix_append_right_inj] using hs.2.2⟩
      · rw [h.2, hs.1 fun c hc => hr c (List.mem_cons_of_mem _ hc)]
        simp [handed]
      · rcases hx.of_cons with ⟨-, hx⟩ | ⟨-, hx⟩
        · rw [ends_ok h0] at hx; cases hx
        · rw [h.2, hs.2.1 x hx]; simp [handed]
  | interrupted =>
    simp only [Rdr.StepSpec] at h
    refine ⟨fun hr => ?_, fun x hx => ?_, by
      rw [before, if_pos (by rfl), ← h]
      simpa [handed] using hs.2.2⟩
    · rw [← h, hs.1 fun c hc => hr c (List.mem_cons_of_mem _ hc)]
      simp [handed]
    · rcases hx.of_cons with ⟨-, hx⟩ | ⟨-, hx⟩
      · simp [ReadRes.ends] at hx
      · rw [← h, hs.2.1 x hx]; simp [handed]
  | fail e =>
    simp only [Rdr.StepSpec] at h
    refine ⟨fun hr => ?_, fun x hx => ?_, by simp [before, ReadRes.ends]⟩
    · have := hr (.fail e) (by simp)
      simp [ReadRes.ends] at this
    · rcases hx.of_cons with ⟨h0, h1⟩ | ⟨hx, -⟩
      · simp [ReadRes.ends] at h1
        simp [h, handed, h0, h1]
      · simp [ReadRes.ends] at hx

theorem Consumes.append {r r' r'' : Rdr} {cs ds : List ReadRes} (hr : Running cs)
    (h : Consumes r cs r') (hs : Consumes r' ds r'') : Consumes r (cs ++ ds) r'' := by
  refine ⟨fun hx => ?_, fun x hx => ?_, by
    rw [before_running hr, h.1 hr]
    simpa [List.prefix_append_right_inj] using hs.2.2⟩
  · rw [h.1 hr, hs.1 hx.right, handed_append, List.append_assoc]
  · have : Stopped ds x := by
      obtain ⟨cs0, d, h0, h1, h2⟩ := hx
      rcases List.eq_nil_or_concat ds with rfl | ⟨ds0, d', rfl⟩
      · rw [List.append_nil] at h0
        rw [hr d (by rw [h0]; simp)] at h2
        cases h2
      · rw [List.concat_eq_append, ← List.append_assoc] at h0
        obtain ⟨e1, e2⟩ := List.append_inj' h0 rfl
        simp at e2
        refine ⟨ds0, d', List.concat_eq_append, ?_, by rw [e2]; exact h2⟩
        rw [← e1] at h1
        exact h1.right
    rw [h.1 hr, hs.2.1 x this, handed_append]

theorem ReadsExact.consumes {n : Nat} {acc : List UInt8} {r r' : Rdr} {cs : List ReadRes}
    {o : Except IoErr (List UInt8)} (h : ReadsExact Rdr.step n acc r cs o r') :
    Consumes r cs r' := by
  induction h with
  | full acc s => exact .nil s
  | eof hn h => exact .cons hn h (.nil _)
  | more hn h hb hr ih => exact .cons hn h ih
  | interrupted hn h hr ih => exact .cons hn h ih
  | fail hn h => exact .cons hn h (.nil _)

theorem ReadsToEnd.consumes {n : Nat} {acc : List UInt8} {r r' : Rdr} {cs : List ReadRes}
    {o : Except IoErr (List UInt8)} (h : ReadsToEnd Rdr.step n acc r cs o r') :
    Consumes r cs r' := by
  induction h with
  | full acc s => exact .nil s
  | eof hn hm h => exact .cons (by omega) h (.nil _)
  | more hn hm h hb hr ih => exact .cons (by omega) h ih
  | interrupted hn hm h hr ih => exact .cons (by omega) h ih
  | fail hn hm h => exact .cons (by omega) h (.nil _)

theorem Stopped.append_left {cs ds : List ReadRes} {x y : Ending} (h : Stopped cs x)
    (h' : Stopped (cs ++ ds) y) : ds = [] := by
  rcases List.eq_nil_or_concat ds with rfl | ⟨ds0, d', rfl⟩
  · rfl
  · obtain ⟨c0, c, rfl, h1, h2⟩ := h
    obtain ⟨e0, e, h0, h3, h4⟩ := h'
    rw [List.concat_eq_append, ← List.append_assoc] at h0
    obtain ⟨e1, -⟩ := List.append_inj' h0 rfl
    have := h3 c (by rw [← e1]; simp)
    rw [this] at h2
    cases h2

theorem Runs.nil_inv {σ : Type} {step : RStep σ} {t : Target} {p : Prog ε α} {s s' : σ}
    {o : Outcome ε α} {cs : List ReadRes} (h : Runs step t p s cs o s') (hc : cs = []) :
    s' = s := by
  have he : ∀ {n acc s s' r}, ReadsExact step n acc s [] r s' → s' = s := by
    intro n acc s s' r h; cases h; rfl
  have hte : ∀ {n acc s s' r}, ReadsToEnd step n acc s [] r s' → s' = s := by
    intro n acc s s' r h; cases h; rfl
  induction h with
  | done o s => rfl
  | readExact v h hk ih =>
    obtain ⟨rfl, rfl⟩ := List.append_eq_nil_iff.mp hc
    rw [ih rfl, he h]
  | readExactErr h => subst hc; exact he h
  | takeToEnd h hk ih =>
    obtain ⟨rfl, rfl⟩ := List.append_eq_nil_iff.mp hc
    rw [ih rfl, hte h]
  | takeToEndErr h => subst hc; exact hte h
  | alloc ha hk ih => exact ih hc
  | allocPanic ha => rfl

theorem Runs.consumes {t : Target} {p : Prog ε α} {r r' : Rdr} {cs : List ReadRes}
    {o : Outcome ε α} (h : Runs Rdr.step t p r cs o r') : Consumes r cs r' := by
  induction h with
  | done o s => exact .nil s
  | readExact v h hk ih =>
    rcases h.spec Rdr.lawful with ⟨h1, -, -⟩ | ⟨x, -, h2, -⟩
    · exact h.consumes.append h1 ih
    · cases h2
  | readExactErr h => exact h.consumes
  | @takeToEnd n onErr k s s' s'' cs cs' o bs h hk ih =>
    rcases h.spec Rdr.lawful with ⟨h1, -, -⟩ | ⟨h1, -, -⟩ | ⟨x, -, h2, -⟩
    · exact h.consumes.append h1 ih
    · refine ⟨fun hr => (hr.not_stopped h1).elim, fun x hx => ?_, by
        rw [before_stopped h1, ← before_of_stopped h1]; exact h.consumes.2.2⟩
      have hn := h1.append_left hx
      subst hn
      rw [List.append_nil] at hx ⊢
      exact h.consumes.2.1 x hx
    · cases h2
  | takeToEndErr h => exact h.consumes
  | alloc ha hk ih => exact ih
  | allocPanic ha => exact .nil _

/-! ## Through `take` -/

/-- Calls on `r.take(n)`: the limit goes down with the bytes handed over. -/
def Limits (r r' : Rdr) (cs : List ReadRes) : Prop :=
  ∀ n q, r = .take n q → ∃ n' q', r' = .take n' q' ∧ n = n' + (handed cs).length ∧
    (n ≤ q.bytes.length ∨ Running cs → q.bytes = handed cs ++ q'.bytes)

theorem Running.tail {c : ReadRes} {cs : List ReadRes} (h : Running (c :: cs)) : Running cs :=
  fun c hc => h c (List.mem_cons_of_mem _ hc)

theorem Limits.cons {m : Nat} (hm : 0 < m) {r r' r'' : Rdr} {c : ReadRes} {cs : List ReadRes}
    (h : Rdr.step r m c r') (hs : Limits r' r'' cs) : Limits r r'' (c :: cs) := by
  rintro n q rfl
  rw [Rdr.step, Rdr.read] at h
  by_cases hn : n = 0
  · subst hn
    simp only [if_true, Prod.mk.injEq] at h
    obtain ⟨rfl, rfl⟩ := h
    obtain ⟨n', q', h1, h2, h3⟩ := hs 0 q rfl
    exact ⟨n', q', h1, by simpa [handed] using h2, fun _ => by
      simpa [handed] using h3 (.inl (Nat.zero_le _))⟩
  · rw [if_neg hn] at h
    have hmin : 0 < min m n := by omega
    rcases hr : Rdr.read (min m n) q with ⟨y, q1⟩
    have hsp := Rdr.read_spec q hmin hr
    rw [hr] at h
    cases y with
    | ok bs =>
      simp only [Prod.mk.injEq] at h
      obtain ⟨rfl, rfl⟩ := h
      simp only [Rdr.StepSpec] at hsp
      obtain ⟨n', q', h1, h2, h3⟩ := hs _ _ rfl
      refine ⟨n', q', h1, by simp [handed]; omega, fun hle => ?_⟩
      by_cases h0 : bs = []
      · simp only [h0, if_true] at hsp
        rcases hle with hle | hle
        · rw [Rdr.bytes, hsp.2] at hle
          simp at hle
          omega
        · have := hle (.ok bs) (by simp)
          rw [h0] at this
          cases this
      · simp only [h0, if_false] at hsp
        have hb : q.bytes = bs ++ q1.bytes := by rw [Rdr.bytes, hsp.2]; rfl
        rw [hb, h3 (hle.imp (fun hle => by rw [hb] at hle; simp at hle; omega) Running.tail)]
        simp [handed]
    | interrupted =>
      simp only [Prod.mk.injEq] at h
      obtain ⟨rfl, rfl⟩ := h
      simp only [Rdr.StepSpec] at hsp
      obtain ⟨n', q', h1, h2, h3⟩ := hs _ _ rfl
      have hb : q1.bytes = q.bytes := by rw [Rdr.bytes, hsp]; rfl
      exact ⟨n', q', h1, h2, by
        rw [← hb]; exact fun hle => h3 (hle.imp id Running.tail)⟩
    | fail e =>
      simp only [Prod.mk.injEq] at h
      obtain ⟨rfl, rfl⟩ := h
      simp only [Rdr.StepSpec] at hsp
      obtain ⟨n', q', h1, h2, h3⟩ := hs _ _ rfl
      refine ⟨n', q', h1, h2, fun hle => ?_⟩
      rcases hle with hle | hle
      · rw [Rdr.bytes, hsp] at hle
        simp at hle
        omega
      · have := hle (.fail e) (by simp)
        cases this

theorem Limits.nil (r : Rdr) : Limits r r [] := by
  rintro n q rfl
  exact ⟨n, q, rfl, by simp [handed], by simp [handed]⟩

theorem Limits.append {r r' r'' : Rdr} {cs ds : List ReadRes} (h : Limits r r' cs)
    (hs : Limits r' r'' ds) : Limits r r'' (cs ++ ds) := by
  rintro n q rfl
  obtain ⟨n1, q1, rfl, h2, h3⟩ := h _ _ rfl
  obtain ⟨n2, q2, rfl, h5, h6⟩ := hs _ _ rfl
  refine ⟨n2, q2, rfl, by simp [handed_append]; omega, fun hle => ?_⟩
  have hb := h3 (hle.imp id Running.left)
  rw [hb, h6 (hle.imp (fun hle => by rw [hb] at hle; simp at hle; omega) Running.right),
    handed_append, List.append_assoc]

theorem ReadsExact.limits {n : Nat} {acc : List UInt8} {r r' : Rdr} {cs : List ReadRes}
    {o : Except IoErr (List UInt8)} (h : ReadsExact Rdr.step n acc r cs o r') :
    Limits r r' cs := by
  induction h with
  | full acc s => exact .nil s
  | eof hn h => exact .cons hn h (.nil _)
  | more hn h hb hr ih => exact .cons hn h ih
  | interrupted hn h hr ih => exact .cons hn h ih
  | fail hn h => exact .cons hn h (.nil _)

theorem ReadsToEnd.limits {n : Nat} {acc : List UInt8} {r r' : Rdr} {cs : List ReadRes}
    {o : Except IoErr (List UInt8)} (h : ReadsToEnd Rdr.step n acc r cs o r') :
    Limits r r' cs := by
  induction h with
  | full acc s => exact .nil s
  | eof hn hm h => exact .cons (by omega) h (.nil _)
  | more hn hm h hb hr ih => exact .cons (by omega) h ih
  | interrupted hn hm h hr ih => exact .cons (by omega) h ih
  | fail hn hm h => exact .cons (by omega) h (.nil _)

theorem Runs.limits {t : Target} {p : Prog ε α} {r r' : Rdr} {cs : List ReadRes}
    {o : Outcome ε α} (h : Runs Rdr.step t p r cs o r') : Limits r r' cs := by
  induction h with
  | done o s => exact .nil s
  | readExact v h hk ih => exact h.limits.append ih
  | readExactErr h => exact h.limits
  | takeToEnd h hk ih => exact h.limits.append ih
  | takeToEndErr h => exact h.limits
  | alloc ha hk ih => exact ih
  | allocPanic ha => exact .nil _

end Dlhn
