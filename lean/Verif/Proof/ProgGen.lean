import Verif.Proof.Prog
/-! # Program logics: no panic, allocation bounds, postconditions -/
namespace Dlhn.Prog

variable {ε ε' α β : Type}

/-! ## No panic -/

/-- No run of the program on target `t` panics. -/
def Total (t : Target) : Prog ε α → Prop
  | done o => o.returns
  | readExact _ _ k => ∀ bs, Total t (k bs)
  | takeToEnd _ _ k => ∀ bs, Total t (k bs)
  | alloc n k => t.allocate n = none ∧ Total t k

theorem Total.bind {t : Target} {p : Prog ε α} {f : α → Prog ε β}
    (hp : Total t p) (hf : ∀ a, Total t (f a)) : Total t (Prog.bind p f) := by
  induction p with
  | done o =>
    cases o with
    | ok a => exact hf a
    | err _ => trivial
    | panic _ => exact hp
  | readExact n onErr k ih => exact fun bs => ih bs (hp bs)
  | takeToEnd n onErr k ih => exact fun bs => ih bs (hp bs)
  | alloc n k ih => exact ⟨hp.1, ih hp.2⟩

theorem Total.mapErr {t : Target} {p : Prog ε α} (f : ε → ε') (hp : Total t p) :
    Total t (Prog.mapErr f p) := by
  induction p with
  | done o => cases o <;> exact hp
  | readExact n onErr k ih => exact fun bs => ih bs (hp bs)
  | takeToEnd n onErr k ih => exact fun bs => ih bs (hp bs)
  | alloc n k ih => exact ⟨hp.1, ih hp.2⟩

theorem Total.exec {t : Target} {p : Prog ε α} (hp : Total t p) (fin : Ending) (bs : List UInt8) :
    (exec t fin p bs).returns := by
  induction p generalizing bs with
  | done o => cases o <;> first | trivial | exact hp
  | readExact n onErr k ih =>
    simp only [Prog.exec]
    split
    · exact ih _ (hp _) _
    · trivial
  | takeToEnd n onErr k ih =>
    simp only [Prog.exec]
    split
    · exact ih _ (hp _) _
    · cases fin
      · exact ih _ (hp _) _
      · trivial
  | alloc n k ih =>
    simp only [Prog.exec, hp.1]
    exact ih hp.2 _

theorem Total.runScript {t : Target} {p : Prog ε α} (hp : Total t p) (size : Nat → Nat)
    (s : Script) : (runScript t size p s).returns := by
  induction p generalizing s with
  | done o => cases o <;> first | trivial | exact hp
  | readExact n onErr k ih =>
    simp only [Prog.runScript]
    split
    · split
      · exact ih _ (hp _) _
      · trivial
    · trivial
  | takeToEnd n onErr k ih =>
    simp only [Prog.runScript]
    split
    · exact ih _ (hp _) _
    · trivial
  | alloc n k ih =>
    simp only [Prog.runScript, hp.1]
    exact ih hp.2 _

/-! ## Allocation requests -/

/-- The program never requests more than `b` bytes at once. -/
def AllocLe (b : Nat) : Prog ε α → Prop
  | done _ => True
  | readExact _ _ k => ∀ bs, AllocLe b (k bs)
  | takeToEnd _ _ k => ∀ bs, AllocLe b (k bs)
  | alloc n k => n ≤ b ∧ AllocLe b k

theorem AllocLe.bind {b : Nat} {p : Prog ε α} {f : α → Prog ε β}
    (hp : AllocLe b p) (hf : ∀ a, AllocLe b (f a)) : AllocLe b (Prog.bind p f) := by
  induction p with
  | done o =>
    cases o with
    | ok a => exact hf a
    | err _ => trivial
    | panic _ => trivial
  | readExact n onErr k ih => exact fun bs => ih bs (hp bs)
  | takeToEnd n onErr k ih => exact fun bs => ih bs (hp bs)
  | alloc n k ih => exact ⟨hp.1, ih hp.2⟩

theorem AllocLe.mapErr {b : Nat} {p : Prog ε α} (f : ε → ε') (hp : AllocLe b p) :
    AllocLe b (Prog.mapErr f p) := by
  induction p with
  | done o => trivial
  | readExact n onErr k ih => exact fun bs => ih bs (hp bs)
  | takeToEnd n onErr k ih => exact fun bs => ih bs (hp bs)
  | alloc n k ih => exact ⟨hp.1, ih hp.2⟩

theorem AllocLe.requests {b : Nat} {p : Prog ε α} (hp : AllocLe b p) (t : Target) (fin : Ending)
    (bs : List UInt8) : ∀ r ∈ requests t fin p bs, r ≤ b := by
  induction p generalizing bs with
  | done o => simp [Prog.requests]
  | readExact n onErr k ih =>
    simp only [Prog.requests]
    split
    · exact ih _ (hp _) _
    · simp
  | takeToEnd n onErr k ih =>
    simp only [Prog.requests]
    split
    · exact ih _ (hp _) _
    · cases fin
      · exact ih _ (hp _) _
      · simp
  | alloc n k ih =>
    simp only [Prog.requests]
    split
    · simp [hp.1]
    · intro r hr
      rcases List.mem_cons.mp hr with h | h
      · rw [h]; exact hp.1
      · exact ih hp.2 _ r h

/-! ## Postconditions -/

/-- Whenever the program succeeds, having consumed `n` bytes and returning `a`,
`Q a n` holds. -/
def Yields (t : Target) (p : Prog ε α) (Q : α → Nat → Prop) : Prop :=
  ∀ fin bs a rest, exec t fin p bs = .ok (a, rest) →
    ∃ n, n + rest.length = bs.length ∧ Q a n

theorem Yields.bind {t : Target} {p : Prog ε α} {f : α → Prog ε β} {Q : α → Nat → Prop}
    {R : β → Nat → Prop} (hp : Yields t p Q)
    (hf : ∀ a n, Q a n → Yields t (f a) fun b m => R b (n + m)) : Yields t (Prog.bind p f) R := by
  intro fin bs b rest h
  rw [exec_bind] at h
  cases hx : Prog.exec t fin p bs with
  | ok ar =>
    obtain ⟨a, r⟩ := ar
    rw [hx, next_ok] at h
    obtain ⟨n, hn, hq⟩ := hp fin bs a r hx
    obtain ⟨m, hm, hr⟩ := hf a n hq fin r b rest h
    exact ⟨n + m, by omega, hr⟩
  | err e => rw [hx] at h; simp at h
  | panic q => rw [hx] at h; simp at h

theorem Yields.done_ok {t : Target} {a : α} {Q : α → Nat → Prop} (h : Q a 0) :
    Yields t (done (.ok a) : Prog ε α) Q := by
  intro fin bs a' rest hx
  simp only [Prog.exec, Outcome.ok.injEq, Prod.mk.injEq] at hx
  obtain ⟨rfl, rfl⟩ := hx
  exact ⟨0, by omega, h⟩

theorem Yields.done_err {t : Target} {e : ε} {Q : α → Nat → Prop} :
    Yields t (done (.err e) : Prog ε α) Q := by
  intro fin bs a' rest hx
  simp [Prog.exec] at hx

theorem Yields.done_panic {t : Target} {q : PanicKind} {Q : α → Nat → Prop} :
    Yields t (done (.panic q) : Prog ε α) Q := by
  intro fin bs a' rest hx
  simp [Prog.exec] at hx

theorem Yields.mono {t : Target} {p : Prog ε α} {Q R : α → Nat → Prop} (h : Yields t p Q)
    (hqr : ∀ a n, Q a n → R a n) : Yields t p R := by
  intro fin bs a rest hx
  obtain ⟨n, hn, hq⟩ := h fin bs a rest hx
  exact ⟨n, hn, hqr a n hq⟩

theorem Yields.readExact {t : Target} {n : Nat} {onErr : IoErr → ε}
    {k : Vector UInt8 n → Prog ε α} {Q : α → Nat → Prop}
    (h : ∀ v, Yields t (k v) fun a m => Q a (n + m)) : Yields t (Prog.readExact n onErr k) Q := by
  intro fin bs a rest hx
  simp only [Prog.exec] at hx
  split at hx
  · obtain ⟨m, hm, hq⟩ := h _ fin _ a rest hx
    rw [List.length_drop] at hm
    exact ⟨n + m, by omega, hq⟩
  · simp at hx

theorem Yields.takeToEnd {t : Target} {n : Nat} {onErr : IoErr → ε}
    {k : List UInt8 → Prog ε α} {Q : α → Nat → Prop}
    (h : ∀ v, v.length ≤ n → Yields t (k v) fun a m => Q a (v.length + m)) :
    Yields t (Prog.takeToEnd n onErr k) Q := by
  intro fin bs a rest hx
  simp only [Prog.exec] at hx
  split at hx
  · obtain ⟨m, hm, hq⟩ := h _ (by simp; omega) fin _ a rest hx
    rw [List.length_drop] at hm
    rw [List.length_take, Nat.min_eq_left (by assumption)] at hq
    exact ⟨n + m, by omega, hq⟩
  · cases fin with
    | eof =>
      obtain ⟨m, hm, hq⟩ := h bs (by omega) _ _ a rest hx
      simp only [List.length_nil] at hm
      exact ⟨bs.length + m, by omega, hq⟩
    | fail e => simp at hx

theorem Yields.alloc {t : Target} {n : Nat} {k : Prog ε α} {Q : α → Nat → Prop}
    (h : Yields t k Q) : Yields t (Prog.alloc n k) Q := by
  intro fin bs a rest hx
  simp only [Prog.exec] at hx
  split at hx
  · simp at hx
  · exact h fin bs a rest hx

/-- Two decoders that differ only in what they make of the value read. -/
theorem runScript_map2 {γ : Type} (t : Target) (size : Nat → Nat) (p : Prog ε α) (f : α → β)
    (g : α → γ) (h : γ → β) (hf : ∀ a, f a = h (g a)) (s : Script) :
    runScript t size (p >>= fun a => Pure.pure (f a)) s
      = (runScript t size (p >>= fun a => Pure.pure (g a)) s).map fun (c, r) => (h c, r) := by
  simp only [bind_eq, pure_eq]
  induction p generalizing s with
  | done o => cases o <;> simp [Prog.bind, Prog.runScript, Outcome.map, hf]
  | readExact n onErr k ih =>
    simp only [Prog.bind, Prog.runScript]
    split
    · split
      · exact ih _ _
      · rfl
    · rfl
  | takeToEnd n onErr k ih =>
    simp only [Prog.bind, Prog.runScript]
    split
    · exact ih _ _
    · rfl
  | alloc n k ih =>
    simp only [Prog.bind, Prog.runScript]
    split
    · rfl
    · exact ih _

end Dlhn.Prog
