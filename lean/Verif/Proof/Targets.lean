import Verif.Proof.After
import Verif.Proof.BodyGen
import Verif.Proof.DeriveDeGen
import Verif.Proof.Rec
import Verif.Proof.Visit
import Verif.Spec.Targets
/-! # Decoders on targets of every pointer width -/
namespace Dlhn

variable {ε α β : Type}

namespace Prog

/-- Like `Strict`, but a `take(n).read_to_end` may accept fewer than `n` bytes if it
never accepts `n`. -/
def Tame (e : IoErr → ε) : Prog ε α → Prop
  | done _ => True
  | readExact _ onErr k => (∀ x, onErr x = e x) ∧ ∀ bs, Tame e (k bs)
  | takeToEnd n onErr k => (∀ x, onErr x = e x) ∧
      ((∀ bs, bs.length < n → k bs = done (.err (e .unexpectedEof))) ∨
        ∀ bs, bs.length = n → ∃ x, k bs = done (.err x)) ∧ ∀ bs, Tame e (k bs)
  | alloc _ k => Tame e k

theorem Tame.bind {e : IoErr → ε} {p : Prog ε α} {f : α → Prog ε β}
    (hp : Tame e p) (hf : ∀ a, Tame e (f a)) : Tame e (Prog.bind p f) := by
  induction p with
  | done o =>
    cases o with
    | ok a => exact hf a
    | err _ => trivial
    | panic _ => trivial
  | readExact n onErr k ih => exact ⟨hp.1, fun bs => ih bs (hp.2 bs)⟩
  | takeToEnd n onErr k ih =>
    refine ⟨hp.1, ?_, fun bs => ih bs (hp.2.2 bs)⟩
    rcases hp.2.1 with h | h
    · exact .inl fun bs hb => by simp only [h bs hb]; rfl
    · refine .inr fun bs hb => ?_
      obtain ⟨x, hx⟩ := h bs hb
      exact ⟨x, by simp only [hx]; rfl⟩
  | alloc n k ih => exact ih hp

theorem Strict.tame {e : IoErr → ε} {p : Prog ε α} (hp : Strict e p) : Tame e p := by
  induction p with
  | done o => trivial
  | readExact n onErr k ih => exact ⟨hp.1, fun bs => ih bs (hp.2 bs)⟩
  | takeToEnd n onErr k ih => exact ⟨hp.1, .inl hp.2.1, fun bs => ih bs (hp.2.2 bs)⟩
  | alloc n k ih => exact ih hp

/-- The data can be continued so that decoding succeeds. -/
def Promising (t : Target) (p : Prog ε α) (bs : List UInt8) : Prop :=
  ∃ more v rest, p.complete t (bs ++ more) = some (.ok v, rest)

theorem Promising.readExact {t : Target} {n : Nat} {onErr : IoErr → ε}
    {k : Vector UInt8 n → Prog ε α} {bs : List UInt8} (h : Promising t (.readExact n onErr k) bs)
    (hn : n ≤ bs.length) : Promising t (k (takeVec bs hn)) (bs.drop n) := by
  obtain ⟨more, v, rest, h⟩ := h
  rw [Prog.complete] at h
  split at h
  · rename_i hn'
    refine ⟨more, v, rest, ?_⟩
    rwa [List.drop_append_of_le_length hn,
      takeVec_of_take hn' hn (List.take_append_of_le_length hn)] at h
  · simp at h

theorem Promising.takeToEnd {t : Target} {n : Nat} {onErr : IoErr → ε}
    {k : List UInt8 → Prog ε α} {bs : List UInt8} (h : Promising t (.takeToEnd n onErr k) bs)
    (hn : n ≤ bs.length) : Promising t (k (bs.take n)) (bs.drop n) := by
  obtain ⟨more, v, rest, h⟩ := h
  rw [Prog.complete] at h
  split at h
  · refine ⟨more, v, rest, ?_⟩
    rwa [List.drop_append_of_le_length hn, List.take_append_of_le_length hn] at h
  · simp at h

theorem Promising.short {e : IoErr → ε} {t : Target} {n : Nat} {onErr : IoErr → ε}
    {k : List UInt8 → Prog ε α} {bs : List UInt8} (h : Promising t (.takeToEnd n onErr k) bs)
    (hp : Tame e (.takeToEnd n onErr k)) (cs : List UInt8) (hc : cs.length < n) :
    k cs = done (.err (e .unexpectedEof)) := by
  obtain ⟨more, v, rest, h⟩ := h
  rcases hp.2.1 with h1 | h1
  · exact h1 cs hc
  · rw [Prog.complete] at h
    split at h
    · rename_i hn
      obtain ⟨x, hx⟩ := h1 ((bs ++ more).take n) (by rw [List.length_take]; omega)
      rw [hx, Prog.complete] at h
      simp at h
    · simp at h

theorem Promising.alloc {t : Target} {n : Nat} {k : Prog ε α} {bs : List UInt8}
    (h : Promising t (.alloc n k) bs) : t.allocate n = none ∧ Promising t k bs := by
  obtain ⟨more, v, rest, h⟩ := h
  rw [Prog.complete] at h
  cases ha : t.allocate n with
  | some q => rw [ha] at h; simp at h
  | none => rw [ha] at h; exact ⟨rfl, more, v, rest, h⟩

/-- On promising data a tame decoder is as good as a strict one. -/
theorem Promising.runScriptAt {e : IoErr → ε} (t : Target) (size : Nat → Nat) {p : Prog ε α}
    (hp : Tame e p) (s : Script) (hs : Promising t p s.bytes) :
    match p.complete t s.bytes with
    | some (o, rest) => ∃ s', p.runScriptAt t size s = (o, s') ∧ s'.bytes = rest ∧
        s'.ending = s.ending ∧ s'.after = s.after
    | none => p.runScriptAt t size s = (.err (e s.ending.shortErr), s.after) := by
  induction p generalizing s with
  | done o => exact ⟨s, rfl, rfl, rfl, rfl⟩
  | readExact n onErr k ih =>
    rw [Prog.complete, Prog.runScriptAt]
    by_cases hn : n ≤ s.bytes.length
    · rw [dif_pos hn]
      obtain ⟨s', e1, e2, e3, e4⟩ := Script.readExactAt_enough hn
      have hl : n = (s.bytes.take n).length := by simp; omega
      rw [e1]
      simp only [dif_pos hl]
      have := ih (takeVec s.bytes hn) (hp.2 _) s' (by rw [e2]; exact hs.readExact hn)
      rw [e2, e3, e4] at this
      have hv : (hl ▸ ⟨(s.bytes.take n).toArray, rfl⟩ : Vector UInt8 n)
          = takeVec s.bytes hn := by
        apply Vector.toArray_inj.mp
        simp only [takeVec]
        have key : ∀ (m : Nat) (l : List UInt8) (h : m = l.length),
            (h ▸ (⟨l.toArray, rfl⟩ : Vector UInt8 l.length) : Vector UInt8 m).toArray
              = l.toArray := by
          intro m l h; subst h; rfl
        exact key n _ (by simpa using hl)
      rw [hv]
      exact this
    · rw [dif_neg hn, Script.readExactAt_short (by omega)]
      simp only [hp.1]
  | takeToEnd n onErr k ih =>
    rw [Prog.complete, Prog.runScriptAt]
    by_cases hn : n ≤ s.bytes.length
    · obtain ⟨s', e1, e2, e3, e4⟩ := Script.takeToEndAt_enough (size := size) hn
      rw [if_pos hn, e1]
      have := ih (s.bytes.take n) (hp.2.2 _) s' (by rw [e2]; exact hs.takeToEnd hn)
      rw [e2, e3, e4] at this
      exact this
    · rw [if_neg hn, Script.takeToEndAt_short (by omega)]
      cases hE : s.ending with
      | eof => simp only [hs.short hp s.bytes (by omega), Prog.runScriptAt, Ending.shortErr]
      | fail x => simp only [hp.1, Ending.shortErr]
  | alloc n k ih =>
    obtain ⟨ha, hk⟩ := hs.alloc
    rw [Prog.complete, Prog.runScriptAt, ha]
    exact ih hp s hk

/-- A clean reader is left as its data are, on every target. -/
theorem runScriptAt_clean_any (t : Target) (size : Nat → Nat) (p : Prog ε α) {s : Script}
    (hs : s.Clean) :
    ((p.runScriptAt t size s).1, (p.runScriptAt t size s).2.bytes) = p.execAt t s.bytes := by
  induction p generalizing s with
  | done o => rfl
  | readExact n onErr k ih =>
    rw [Prog.execAt, Prog.runScriptAt]
    by_cases hn : n ≤ s.bytes.length
    · rw [dif_pos hn]
      have hc := hs.readExactAt n []
      obtain ⟨s', e1, e2, e3, e4⟩ := Script.readExactAt_enough hn
      rw [e1] at hc
      have hl : n = (s.bytes.take n).length := by simp; omega
      rw [e1]
      simp only [dif_pos hl]
      have := ih (takeVec s.bytes hn) hc
      rw [e2] at this
      have hv : (hl ▸ ⟨(s.bytes.take n).toArray, rfl⟩ : Vector UInt8 n)
          = takeVec s.bytes hn := by
        apply Vector.toArray_inj.mp
        simp only [takeVec]
        have key : ∀ (m : Nat) (l : List UInt8) (h : m = l.length),
            (h ▸ (⟨l.toArray, rfl⟩ : Vector UInt8 l.length) : Vector UInt8 m).toArray
              = l.toArray := by
          intro m l h; subst h; rfl
        exact key n _ (by simpa using hl)
      rw [hv]
      exact this
    · rw [dif_neg hn, Script.readExactAt_short (by omega)]
      simp only [hs.end.1, hs.end.2, Ending.shortErr]
      rfl
  | takeToEnd n onErr k ih =>
    rw [Prog.execAt, Prog.runScriptAt]
    have hc := hs.takeToEndAt size 0 n []
    by_cases hn : n ≤ s.bytes.length
    · obtain ⟨s', e1, e2, e3, e4⟩ := Script.takeToEndAt_enough (size := size) hn
      rw [e1] at hc
      rw [if_pos hn, e1]
      have := ih (s.bytes.take n) hc
      rw [e2] at this
      exact this
    · rw [Script.takeToEndAt_short (by omega)] at hc ⊢
      rw [if_neg hn]
      rw [hs.end.1, hs.end.2] at hc ⊢
      exact ih s.bytes hc
  | alloc n k ih =>
    rw [Prog.execAt, Prog.runScriptAt]
    cases t.allocate n with
    | some q => rfl
    | none => exact ih hs

/-- A decoder that leaves data unread has read all it asked for. -/
theorem complete_of_rest (t : Target) {p : Prog ε α} {bs rest : List UInt8} {v : α}
    (h : Prog.run t p bs = .ok (v, rest)) (hr : rest ≠ []) :
    p.complete t bs = some (.ok v, rest) := by
  rw [Prog.run] at h
  induction p generalizing bs with
  | done o =>
    cases o <;> simp [Prog.exec] at h
    rw [Prog.complete, h.1, h.2]
  | readExact n onErr k ih =>
    rw [Prog.exec] at h
    rw [Prog.complete]
    split at h
    · rename_i hn
      rw [dif_pos hn]
      exact ih _ h
    · simp at h
  | takeToEnd n onErr k ih =>
    rw [Prog.exec] at h
    rw [Prog.complete]
    split at h
    · rename_i hn
      rw [if_pos hn]
      exact ih _ h
    · have := Rec.exec_length t _ _ _ _ _ h
      exact absurd (List.length_eq_zero_iff.mp (Nat.le_zero.mp this)) hr
  | alloc n k ih =>
    rw [Prog.exec] at h
    rw [Prog.complete]
    cases ha : t.allocate n with
    | some q => rw [ha] at h; simp at h
    | none => rw [ha] at h; exact ih h

theorem recognised_of_complete {t : Target} {p : Prog DeErr α} (hp : Tame De.orRead p)
    {enc : List UInt8} {v : α} (h : p.complete t enc = some (.ok v, [])) :
    Recognised t p enc v := by
  obtain ⟨used, h1, h2, h3⟩ := Prog.complete_split t h
  rw [List.append_nil] at h1
  subst h1
  have hc : ∀ (size : Nat → Nat) (s : Script), s.bytes <+: enc → s.bytes ≠ enc →
      p.runScriptAt t size s = (.err .read, s.after) := by
    intro size s hs hne
    have := Promising.runScriptAt t size hp s (by
      obtain ⟨more, hm⟩ := hs
      exact ⟨more, v, [], by rw [hm]; exact h⟩)
    rw [h3 _ hs hne] at this
    exact this
  refine ⟨fun size s more hs => ?_, hc, fun pre hs hne => ?_⟩
  · have := Promising.runScriptAt t size hp s ⟨[], v, more, by rw [List.append_nil, hs, h2]⟩
    rw [hs, h2] at this
    exact this
  · have hb : Script.bytes (if pre = [] then [] else [.data pre]) = pre := by
      split <;> simp_all [Script.bytes]
    have hcl : Script.Clean (if pre = [] then [] else [.data pre]) := by
      intro ev hev
      split at hev
      · simp at hev
      · rename_i hne
        exact .inr ⟨pre, hne, by simpa using hev⟩
    have := runScriptAt_clean_any t (fun _ => 0) p hcl
    rw [hc _ _ (by rw [hb]; exact hs) (by rw [hb]; exact hne), hb] at this
    rw [Prog.execAt_fst, ← this]
    rfl

theorem recognised {t : Target} {p : Prog DeErr α} (hp : Tame De.orRead p) {enc rest : List UInt8}
    {v : α} (h : Prog.run t p (enc ++ rest) = .ok (v, rest)) (hr : rest ≠ []) :
    Recognised t p enc v := by
  refine recognised_of_complete hp ?_
  obtain ⟨used, h1, h2, -⟩ := Prog.complete_split t (complete_of_rest t h hr)
  rw [List.append_cancel_right h1]
  have := h2 []
  rwa [List.append_nil] at this

theorem followed {t : Target} {p : Prog DeErr α} (hp : Tame De.orRead p) {bs rest : List UInt8}
    {v : α} (h : Prog.run t p bs = .ok (v, rest)) (hr : rest ≠ []) :
    ∃ used, bs = used ++ rest ∧ Recognised t p used v := by
  obtain ⟨used, rfl, -, -⟩ := Prog.complete_split t (complete_of_rest t h hr)
  exact ⟨used, rfl, recognised hp h hr⟩

end Prog

namespace De

theorem asUsize_eq_or (t : Target) (x : UInt64) : t.asUsize x = x.toNat ∨ t.asUsize x < x.toNat := by
  rw [Target.asUsize]
  have := Nat.mod_le x.toNat (2 ^ t.ptr.bits)
  omega

theorem tame_string (t : Target) : Prog.Tame orRead (deString t) := by
  refine (strict_u64.mapErr orRead).tame.bind fun len => ?_
  split
  · refine Prog.Tame.bind ⟨fun _ => rfl, fun _ => trivial⟩ fun v => ?_
    split <;> trivial
  · refine ⟨fun _ => rfl, ?_, fun bs => ?_⟩
    · rcases asUsize_eq_or t len with h | h
      · refine .inl fun bs hb => ?_
        simp only
        split
        · rfl
        · rw [h, if_pos (by omega)]; rfl
      · refine .inr fun bs hb => ?_
        simp only
        split
        · exact ⟨_, rfl⟩
        · rw [if_pos (by omega)]; exact ⟨_, rfl⟩
    · simp only
      split
      · trivial
      · split <;> trivial

theorem closed_tame (t : Target) : Closed t (fun {_} p => Prog.Tame orRead p) where
  ok _ := trivial
  err _ := trivial
  bind hp hf := Prog.Tame.bind hp hf
  read _ _ := ⟨fun _ => rfl, fun _ => trivial⟩
  u16 := (strict_u16.mapErr orRead).tame
  u32 := (strict_u32.mapErr orRead).tame
  u64 := (strict_u64.mapErr orRead).tame
  string := tame_string t
  byteBuf := (strict_byteBuf t).tame

theorem tame_de (t : Target) (ty : Ty) : Prog.Tame orRead (de t ty) :=
  closed_de (closed_tame t) ty (.inr trivial)

theorem tame_impl (t : Target) {α : Type} (i : Impl α) : Prog.Tame orRead (i.run t) :=
  closed_impl (closed_tame t) i (.inr fun _ => trivial)

end De

theorem Body.tame_de (t : Target) (mode : BuildMode) (size : Nat) (h : Header) :
    Prog.Tame De.orRead (Body.de t mode size h) :=
  Body.closed_body (De.closed_tame t) mode size (fun _ => True) (fun _ _ _ hk => hk) h
    (fun _ _ _ => trivial) (fun _ _ => trivial) fun _ => .inr trivial

theorem Derive.tame_deTy (t : Target) (mode : BuildMode) (env : Derive.Env) (T : RTy) :
    Prog.Tame De.orRead (Derive.deTy t mode env T) :=
  Derive.closed_deTy (De.closed_tame t) mode env T
    ⟨fun _ => trivial, fun _ => .inr trivial, fun _ => trivial⟩

theorem Rec.tame_named (t : Target) (defs : Rec.Defs) : (d : Nat) → (n : String) →
    Prog.Tame De.orRead (Rec.deNamed t defs d n)
  | 0, _ => by rw [Rec.deNamed]; trivial
  | d + 1, n => by
    rw [Rec.deNamed]
    exact Rec.closed_body (De.closed_tame t) trivial (Rec.tame_named t defs d) (defs n)

end Dlhn
