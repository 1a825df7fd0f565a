import Verif.Model.Reader
/-! # Generic facts about decoders, proved once by induction over programs -/
namespace Dlhn

variable {ε ε' α β : Type}

namespace Prog

@[simp] theorem pure_eq (a : α) : (Pure.pure a : Prog ε α) = Prog.done (.ok a) := rfl
@[simp] theorem bind_eq (p : Prog ε α) (f : α → Prog ε β) : (p >>= f) = Prog.bind p f := rfl

/-- Sequencing outcomes that carry the unread data. -/
def next (o : Outcome ε (α × List UInt8)) (f : α → List UInt8 → Outcome ε (β × List UInt8)) :
    Outcome ε (β × List UInt8) :=
  match o with
  | .ok (a, r) => f a r
  | .err e => .err e
  | .panic q => .panic q

@[simp] theorem next_ok (a : α) (r : List UInt8)
    (f : α → List UInt8 → Outcome ε (β × List UInt8)) : next (.ok (a, r)) f = f a r := rfl
@[simp] theorem next_err (e : ε) (f : α → List UInt8 → Outcome ε (β × List UInt8)) :
    next (.err e) f = .err e := rfl
@[simp] theorem next_panic (q : PanicKind) (f : α → List UInt8 → Outcome ε (β × List UInt8)) :
    next (.panic q) f = .panic q := rfl

theorem exec_bind (t : Target) (fin : Ending) (p : Prog ε α) (f : α → Prog ε β)
    (bs : List UInt8) :
    exec t fin (Prog.bind p f) bs = next (exec t fin p bs) fun a r => exec t fin (f a) r := by
  induction p generalizing bs with
  | done o => cases o <;> rfl
  | readExact n onErr k ih =>
    simp only [Prog.bind, exec]
    split
    · exact ih _ _
    · rfl
  | takeToEnd n onErr k ih =>
    simp only [Prog.bind, exec]
    split
    · exact ih _ _
    · cases fin
      · exact ih _ _
      · rfl
  | alloc n k ih =>
    simp only [Prog.bind, exec]
    split
    · rfl
    · exact ih _

theorem exec_mapErr (t : Target) (fin : Ending) (p : Prog ε α) (f : ε → ε')
    (bs : List UInt8) :
    exec t fin (Prog.mapErr f p) bs = (exec t fin p bs).mapErr f := by
  induction p generalizing bs with
  | done o => cases o <;> rfl
  | readExact n onErr k ih =>
    simp only [Prog.mapErr, exec]
    split
    · exact ih _ _
    · rfl
  | takeToEnd n onErr k ih =>
    simp only [Prog.mapErr, exec]
    split
    · exact ih _ _
    · cases fin
      · exact ih _ _
      · rfl
  | alloc n k ih =>
    simp only [Prog.mapErr, exec]
    split
    · rfl
    · exact ih _

/-- Every reader call maps an I/O error `x` to `e x`, and a short
`take(n).read_to_end` is turned into the end-of-file error. -/
def Strict (e : IoErr → ε) : Prog ε α → Prop
  | done _ => True
  | readExact _ onErr k => (∀ x, onErr x = e x) ∧ ∀ bs, Strict e (k bs)
  | takeToEnd n onErr k => (∀ x, onErr x = e x) ∧
      (∀ bs, bs.length < n → k bs = done (.err (e .unexpectedEof))) ∧ ∀ bs, Strict e (k bs)
  | alloc _ k => Strict e k

theorem Strict.bind {e : IoErr → ε} {p : Prog ε α} {f : α → Prog ε β}
    (hp : Strict e p) (hf : ∀ a, Strict e (f a)) : Strict e (Prog.bind p f) := by
  induction p with
  | done o =>
    cases o with
    | ok a => exact hf a
    | err _ => trivial
    | panic _ => trivial
  | readExact n onErr k ih => exact ⟨hp.1, fun bs => ih bs (hp.2 bs)⟩
  | takeToEnd n onErr k ih =>
    refine ⟨hp.1, fun bs h => ?_, fun bs => ih bs (hp.2.2 bs)⟩
    simp only [hp.2.1 bs h, Prog.bind]
  | alloc n k ih => exact ih hp

theorem Strict.mapErr {e : IoErr → ε} {p : Prog ε α} (f : ε → ε') (hp : Strict e p) :
    Strict (fun x => f (e x)) (Prog.mapErr f p) := by
  induction p with
  | done o => trivial
  | readExact n onErr k ih =>
    exact ⟨fun x => by simp [hp.1 x], fun bs => ih bs (hp.2 bs)⟩
  | takeToEnd n onErr k ih =>
    refine ⟨fun x => by simp [hp.1 x], fun bs h => ?_, fun bs => ih bs (hp.2.2 bs)⟩
    simp only [hp.2.1 bs h, Prog.mapErr, Outcome.mapErr]
  | alloc n k ih => exact ih hp

theorem takeVec_append {n : Nat} (bs rest : List UInt8) (h : n ≤ bs.length)
    (h' : n ≤ (bs ++ rest).length) : takeVec (bs ++ rest) h' = takeVec bs h := by
  simp only [takeVec]
  congr 2
  exact List.take_append_of_le_length h

/-- The heart of streaming: a successful run splits its input into the part it
used and the rest; it does the same on the used part followed by anything, and
fails with the end-of-data error on every strict prefix of the used part. -/
theorem exec_split {e : IoErr → ε} (t : Target) (fin : Ending) {p : Prog ε α}
    (hp : Strict e p) {bs rest : List UInt8} {a : α}
    (h : exec t fin p bs = .ok (a, rest)) :
    ∃ used, bs = used ++ rest ∧
      (∀ fin' rest', exec t fin' p (used ++ rest') = .ok (a, rest')) ∧
      (∀ fin' pre, pre <+: used → pre ≠ used → exec t fin' p pre = .err (e fin'.shortErr)) := by
  induction p generalizing bs with
  | done o =>
    cases o with
    | ok a' =>
      simp only [exec, Outcome.ok.injEq, Prod.mk.injEq] at h
      refine ⟨[], by simp [h.2], fun _ _ => by simp [exec, h.1], fun _ pre hpre hne => ?_⟩
      exact absurd (List.prefix_nil.mp hpre) hne
    | err _ => simp [exec] at h
    | panic _ => simp [exec] at h
  | readExact n onErr k ih =>
    simp only [exec] at h
    split at h
    · rename_i hn
      obtain ⟨used, hb, hs, hpre⟩ := ih _ (hp.2 _) h
      refine ⟨bs.take n ++ used, ?_, fun fin' rest' => ?_, fun fin' pre hp1 hp2 => ?_⟩
      · rw [List.append_assoc, ← hb, List.take_append_drop]
      · simp only [exec]
        have hlen : n ≤ (bs.take n ++ used ++ rest').length := by simp; omega
        rw [dif_pos hlen]
        have e1 : takeVec (bs.take n ++ used ++ rest') hlen = takeVec bs hn := by
          simp only [takeVec]; congr 2
          rw [List.append_assoc, List.take_append_of_le_length (by simp; omega), List.take_take,
            Nat.min_self]
        have e2 : (bs.take n ++ used ++ rest').drop n = used ++ rest' := by
          rw [List.append_assoc, List.drop_append_of_le_length (by simp; omega)]
          simp
        rw [e1, e2]
        exact hs fin' rest'
      · simp only [exec]
        split
        · rename_i hn'
          have hsplit : pre = bs.take n ++ pre.drop n := by
            have : pre.take n = (bs.take n ++ used).take n := by
              obtain ⟨t, ht⟩ := hp1
              rw [← ht, List.take_append_of_le_length hn']
            rw [List.take_append_of_le_length (by simp; omega), List.take_take, Nat.min_self] at this
            rw [← this, List.take_append_drop]
          have e1 : takeVec pre hn' = takeVec bs hn := by
            simp only [takeVec]; congr 2
            rw [hsplit, List.take_append_of_le_length (by simp; omega), List.take_take,
              Nat.min_self]
          rw [e1]
          apply hpre
          · rw [hsplit] at hp1
            exact (List.prefix_append_right_inj _).mp hp1
          · intro heq
            apply hp2
            rw [hsplit, heq]
        · rw [hp.1]
    · simp at h
  | takeToEnd n onErr k ih =>
    simp only [exec] at h
    split at h
    · rename_i hn
      obtain ⟨used, hb, hs, hpre⟩ := ih _ (hp.2.2 _) h
      refine ⟨bs.take n ++ used, ?_, fun fin' rest' => ?_, fun fin' pre hp1 hp2 => ?_⟩
      · rw [List.append_assoc, ← hb, List.take_append_drop]
      · simp only [exec]
        have hlen : n ≤ (bs.take n ++ used ++ rest').length := by simp; omega
        rw [if_pos hlen]
        have e1 : (bs.take n ++ used ++ rest').take n = bs.take n := by
          rw [List.append_assoc, List.take_append_of_le_length (by simp; omega), List.take_take,
            Nat.min_self]
        have e2 : (bs.take n ++ used ++ rest').drop n = used ++ rest' := by
          rw [List.append_assoc, List.drop_append_of_le_length (by simp; omega)]
          simp
        rw [e1, e2]
        exact hs fin' rest'
      · simp only [exec]
        split
        · rename_i hn'
          have hsplit : pre = bs.take n ++ pre.drop n := by
            have : pre.take n = (bs.take n ++ used).take n := by
              obtain ⟨t, ht⟩ := hp1
              rw [← ht, List.take_append_of_le_length hn']
            rw [List.take_append_of_le_length (by simp; omega), List.take_take, Nat.min_self] at this
            rw [← this, List.take_append_drop]
          have e1 : pre.take n = bs.take n := by
            rw [hsplit, List.take_append_of_le_length (by simp; omega), List.take_take,
              Nat.min_self]
          rw [e1]
          apply hpre
          · rw [hsplit] at hp1
            exact (List.prefix_append_right_inj _).mp hp1
          · intro heq
            apply hp2
            rw [hsplit, heq]
        · rename_i hn'
          cases fin' with
          | eof =>
            simp only [hp.2.1 pre (by omega), exec, Ending.shortErr]
          | fail x => simp only [Ending.shortErr, hp.1]
    · rename_i hn
      cases fin with
      | eof =>
        simp only [hp.2.1 bs (by omega), exec] at h
        simp at h
      | fail x => simp at h
  | alloc n k ih =>
    simp only [exec] at h
    split at h
    · simp at h
    · rename_i hn
      obtain ⟨used, hb, hs, hpre⟩ := ih hp h
      refine ⟨used, hb, fun fin' rest' => ?_, fun fin' pre hp1 hp2 => ?_⟩
      · simp only [exec, hn]; exact hs fin' rest'
      · simp only [exec, hn]; exact hpre fin' pre hp1 hp2

/-- Running on appended data when the run on `bs` alone consumed everything. -/
theorem exec_append {e : IoErr → ε} (t : Target) (fin : Ending) {p : Prog ε α}
    (hp : Strict e p) {bs rest more : List UInt8} {a : α}
    (h : exec t fin p bs = .ok (a, rest)) (fin' : Ending) :
    exec t fin' p (bs ++ more) = .ok (a, rest ++ more) := by
  obtain ⟨used, hb, hs, -⟩ := exec_split t fin hp h
  rw [hb, List.append_assoc]
  exact hs fin' _

/-- How the data end matters only for which error is returned when they run out. -/
theorem exec_ending {e : IoErr → ε} (t : Target) (fin fin' : Ending) {p : Prog ε α}
    (hp : Strict e p) (bs : List UInt8) :
    exec t fin p bs = exec t fin' p bs ∨
    (exec t fin p bs = .err (e fin.shortErr) ∧ exec t fin' p bs = .err (e fin'.shortErr)) := by
  induction p generalizing bs with
  | done o => cases o <;> exact .inl rfl
  | readExact n onErr k ih =>
    simp only [exec]
    split
    · exact ih _ (hp.2 _) _
    · exact .inr ⟨by rw [hp.1], by rw [hp.1]⟩
  | takeToEnd n onErr k ih =>
    simp only [exec]
    split
    · exact ih _ (hp.2.2 _) _
    · rename_i h
      have hk := hp.2.1 bs (by omega)
      cases fin <;> cases fin' <;> simp only [hk, exec, hp.1, Ending.shortErr] <;>
        first | exact .inl rfl | exact .inr ⟨trivial, trivial⟩
  | alloc n k ih =>
    simp only [exec]
    split
    · exact .inl rfl
    · exact ih hp _

end Prog

/-! ## Arbitrary readers -/

theorem Script.read_bytes {n : Nat} (hn : 0 < n) (s : Script) :
    match Script.read n s with
    | (.ok bs, s') => if bs = [] then s.bytes = [] ∧ s.ending = .eof
        else bs.length ≤ n ∧ s.bytes = bs ++ s'.bytes ∧ s'.ending = s.ending
    | (.interrupted, s') => s'.bytes = s.bytes ∧ s'.ending = s.ending
    | (.fail e, _) => s.bytes = [] ∧ s.ending = .fail e := by
  cases s with
  | nil => simp [Script.read, Script.bytes, Script.ending]
  | cons ev s =>
    cases ev with
    | interrupted => simp [Script.read, Script.bytes, Script.ending]
    | fail e => simp [Script.read, Script.bytes, Script.ending]
    | data c =>
      simp only [Script.read]
      by_cases hc : c.length ≤ n
      · simp only [hc, if_true]
        by_cases h0 : c = []
        · simp [h0, Script.bytes, Script.ending]
        · simp [h0, Script.bytes, Script.ending]
      · simp only [hc, if_false]
        have h0 : c ≠ [] := by intro h; simp [h] at hc
        have h1 : c.take n ≠ [] := by
          intro h; rw [List.take_eq_nil_iff] at h; simp [h0] at h; omega
        have h2 : c.drop n ≠ [] := by
          intro h; rw [List.drop_eq_nil_iff] at h; omega
        simp only [h1, if_false, Script.bytes, h0, h2, Script.ending]
        refine ⟨by simp; omega, ?_, trivial⟩
        rw [← List.append_assoc, List.take_append_drop]

theorem Script.readExact_spec (n : Nat) (acc : List UInt8) (s : Script) :
    (n ≤ s.bytes.length → ∃ s', Script.readExact n acc s = .ok (acc ++ s.bytes.take n) s' ∧
        s'.bytes = s.bytes.drop n ∧ s'.ending = s.ending) ∧
    (s.bytes.length < n → Script.readExact n acc s = .err s.ending.shortErr) := by
  induction h : Script.weight s using Nat.strongRecOn generalizing n acc s with
  | _ w ih =>
    subst h
    rw [Script.readExact]
    by_cases hn : n = 0
    · subst hn
      simp
    · simp only [hn, dite_false]
      by_cases hs : s = []
      · subst hs
        simp [Script.bytes, Script.ending, Ending.shortErr]
        omega
      · simp only [hs, dite_false]
        have hw := Script.read_weight (Nat.pos_of_ne_zero hn) s hs
        have hb := Script.read_bytes (Nat.pos_of_ne_zero hn) s
        split
        · rename_i bs s' heq
          rw [heq] at hw hb
          simp only at hb hw
          split
          · rename_i h0
            simp only [h0, if_true] at hb
            refine ⟨fun hle => ?_, fun _ => by simp [hb.2, Ending.shortErr]⟩
            simp [hb.1] at hle; omega
          · rename_i h0
            simp only [h0, if_false] at hb
            obtain ⟨hb1, hb2, hb3⟩ := hb
            have hbl : 0 < bs.length := List.length_pos_iff.mpr h0
            obtain ⟨i1, i2⟩ := ih _ hw (n - bs.length) (acc ++ bs) s' rfl
            rw [hb2]
            constructor
            · intro hle
              simp only [List.length_append] at hle
              obtain ⟨s'', e1, e2, e3⟩ := i1 (by omega)
              refine ⟨s'', ?_, ?_, by rw [e3, hb3]⟩
              · rw [e1, List.take_append, List.take_of_length_le hb1, List.append_assoc]
              · rw [e2, List.drop_append, List.drop_of_length_le hb1, List.nil_append]
            · intro hlt
              simp only [List.length_append] at hlt
              rw [i2 (by omega), hb3]
        · rename_i s' heq
          rw [heq] at hw hb
          simp only at hb hw
          obtain ⟨i1, i2⟩ := ih _ hw n acc s' rfl
          rw [hb.1, hb.2] at i1
          rw [hb.1, hb.2] at i2
          exact ⟨i1, i2⟩
        · rename_i e s' heq
          rw [heq] at hb
          simp only at hb
          refine ⟨fun hle => ?_, fun _ => by simp [hb.2, Ending.shortErr]⟩
          simp [hb.1] at hle; omega

theorem Script.takeToEnd_spec (size : Nat → Nat) (i n : Nat) (acc : List UInt8) (s : Script) :
    (n ≤ s.bytes.length → ∃ s', Script.takeToEnd size i n acc s = .ok (acc ++ s.bytes.take n) s' ∧
        s'.bytes = s.bytes.drop n ∧ s'.ending = s.ending) ∧
    (s.bytes.length < n → ∀ e, s.ending = .fail e → Script.takeToEnd size i n acc s = .err e) ∧
    (s.bytes.length < n → s.ending = .eof →
      ∃ s', Script.takeToEnd size i n acc s = .ok (acc ++ s.bytes) s') := by
  induction h : Script.weight s using Nat.strongRecOn generalizing i n acc s with
  | _ w ih =>
    subst h
    rw [Script.takeToEnd]
    by_cases hn : n = 0
    · subst hn
      simp
    · simp only [hn, dite_false]
      by_cases hs : s = []
      · subst hs
        simp [Script.bytes, Script.ending, hn]
      · simp only [hs, dite_false]
        have hm : 0 < min n (size i + 1) := by omega
        have hw := Script.read_weight hm s hs
        have hb := Script.read_bytes hm s
        split
        · rename_i bs s' heq
          rw [heq] at hw hb
          simp only at hb hw
          split
          · rename_i h0
            simp only [h0, if_true] at hb
            refine ⟨fun hle => ?_, fun _ e he => by simp [hb.2] at he, fun _ _ => ⟨s', by simp [hb.1]⟩⟩
            simp [hb.1] at hle; omega
          · rename_i h0
            simp only [h0, if_false] at hb
            obtain ⟨hb1, hb2, hb3⟩ := hb
            have hbl : 0 < bs.length := List.length_pos_iff.mpr h0
            obtain ⟨i1, i2, i3⟩ := ih _ hw (i + 1) (n - bs.length) (acc ++ bs) s' rfl
            rw [hb2]
            refine ⟨?_, ?_, ?_⟩
            · intro hle
              simp only [List.length_append] at hle
              obtain ⟨s'', e1, e2, e3⟩ := i1 (by omega)
              refine ⟨s'', ?_, ?_, by rw [e3, hb3]⟩
              · rw [e1, List.take_append, List.take_of_length_le (by omega : bs.length ≤ n),
                  List.append_assoc]
              · rw [e2, List.drop_append, List.drop_of_length_le (by omega : bs.length ≤ n),
                  List.nil_append]
            · intro hlt e he
              simp only [List.length_append] at hlt
              exact i2 (by omega) e (by rw [hb3, he])
            · intro hlt he
              simp only [List.length_append] at hlt
              obtain ⟨s'', e1⟩ := i3 (by omega) (by rw [hb3, he])
              exact ⟨s'', by rw [e1, List.append_assoc]⟩
        · rename_i s' heq
          rw [heq] at hw hb
          simp only at hb hw
          obtain ⟨i1, i2, i3⟩ := ih _ hw (i + 1) n acc s' rfl
          rw [hb.1, hb.2] at i1
          rw [hb.1, hb.2] at i2
          rw [hb.1, hb.2] at i3
          exact ⟨i1, i2, i3⟩
        · rename_i e s' heq
          rw [heq] at hb
          simp only at hb
          refine ⟨fun hle => ?_, fun _ e' he => by simp [hb.2] at he; rw [he],
            fun _ he => by simp [hb.2] at he⟩
          simp [hb.1] at hle; omega

/-- On any reader a strict decoder behaves as on the bytes the reader delivers;
the unread data stay in the reader. -/
theorem Prog.runScript_spec {e : IoErr → ε} (t : Target) (size : Nat → Nat) {p : Prog ε α}
    (hp : Strict e p) (s : Script) :
    match exec t s.ending p s.bytes with
    | .ok (a, rest) => ∃ s', runScript t size p s = .ok (a, s') ∧ s'.bytes = rest ∧
        s'.ending = s.ending
    | .err x => runScript t size p s = .err x
    | .panic q => runScript t size p s = .panic q := by
  induction p generalizing s with
  | done o => cases o <;> simp [exec, runScript]
  | readExact n onErr k ih =>
    obtain ⟨h1, h2⟩ := Script.readExact_spec n [] s
    simp only [exec, runScript]
    by_cases hn : n ≤ s.bytes.length
    · obtain ⟨s', e1, e2, e3⟩ := h1 hn
      have hl : n = ([] ++ s.bytes.take n).length := by simp; omega
      rw [dif_pos hn, e1]
      simp only [dif_pos hl]
      have := ih (takeVec s.bytes hn) (hp.2 _) s'
      rw [e2, e3] at this
      have hv : (hl ▸ ⟨([] ++ s.bytes.take n).toArray, rfl⟩ : Vector UInt8 n)
          = takeVec s.bytes hn := by
        apply Vector.toArray_inj.mp
        simp only [takeVec, List.nil_append]
        have key : ∀ (m : Nat) (l : List UInt8) (h : m = l.length),
            (h ▸ (⟨l.toArray, rfl⟩ : Vector UInt8 l.length) : Vector UInt8 m).toArray = l.toArray := by
          intro m l h; subst h; rfl
        exact key n _ (by simpa using hl)
      rw [hv]
      exact this
    · rw [dif_neg hn, h2 (by omega)]
  | takeToEnd n onErr k ih =>
    obtain ⟨h1, h2, h3⟩ := Script.takeToEnd_spec size 0 n [] s
    simp only [exec, runScript]
    by_cases hn : n ≤ s.bytes.length
    · obtain ⟨s', e1, e2, e3⟩ := h1 hn
      rw [if_pos hn, e1]
      have := ih (s.bytes.take n) (hp.2.2 _) s'
      rw [e2, e3] at this
      simpa using this
    · rw [if_neg hn]
      cases hE : s.ending with
      | eof =>
        obtain ⟨s', e1⟩ := h3 (by omega) hE
        rw [e1]
        simp only [hp.2.1 s.bytes (by omega), List.nil_append, exec, runScript]
      | fail x =>
        rw [h2 (by omega) x hE]
  | alloc n k ih =>
    simp only [exec, runScript]
    cases t.allocate n with
    | some q => simp
    | none => exact ih hp s

end Dlhn
