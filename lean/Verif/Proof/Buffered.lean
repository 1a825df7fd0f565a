import Verif.Model.Buffered
import Verif.Proof.Prog
import Verif.Proof.Writer
/-!
# Proofs about buffered readers and writers
-/
namespace Dlhn

/-! ## `BufWriter` -/

/-- Everything handed to a `BufWriter` and not lost: accepted or held back. -/
def BufW.all (b : BufW) : List UInt8 := b.sink ++ b.buf

theorem BufW.flushBuf_spec (b : BufW) :
    match b.flushBuf with
    | (none, b') => b'.sink = b.sink ++ b.buf ∧ b'.buf = []
    | (some _, b') => b'.sink ++ b'.buf = b.sink ++ b.buf ∧ b'.buf ≠ [] ∧
        b'.buf.length ≤ b.buf.length := by
  have h := WScript.writeAll_spec b.buf b.rest
  rcases hr : WScript.writeAll b.buf b.rest with ⟨out, err, s⟩
  rw [hr] at h
  simp only [BufW.flushBuf, hr]
  cases err with
  | none => simp only at h ⊢; subst h; simp
  | some e =>
    simp only at h ⊢
    obtain ⟨⟨r, hp⟩, hne⟩ := h
    rw [← hp]
    refine ⟨by simp, ?_, by simp⟩
    intro h0
    simp at h0
    subst h0
    simp at hp
    exact hne hp

theorem BufW.flushBuf_all (b : BufW) : b.flushBuf.2.all = b.all := by
  have h := b.flushBuf_spec
  rcases hr : b.flushBuf with ⟨_ | e, b'⟩ <;> rw [hr] at h <;> simp only at h
  · simp [BufW.all, h.1, h.2]
  · exact h.1

theorem BufW.flushes_all (n : Nat) (b : BufW) : (b.flushes n).all = b.all := by
  induction n generalizing b with
  | zero => rfl
  | succ n ih => rw [BufW.flushes, ih, BufW.flushBuf_all]

/-- What `write_all` on a `BufWriter` does with the bytes it is given. -/
def BufW.Step (b : BufW) (bs : List UInt8) (r : Option IoErr × BufW) : Prop :=
  match r with
  | (none, b') => b'.all = b.all ++ bs
  | (some _, b') => b'.all <+: b.all ++ bs ∧ b'.all ≠ b.all ++ bs

theorem BufW.writeCold_spec (cap : Nat) (b : BufW) (bs : List UInt8)
    (h : cap ≤ bs.length → b.buf = [] ∨ bs = []) : b.Step bs (b.writeCold cap bs) := by
  rw [BufW.writeCold]
  by_cases hc : cap ≤ bs.length
  · rw [if_pos hc]
    have hs := WScript.writeAll_spec bs b.rest
    rcases hr : WScript.writeAll bs b.rest with ⟨out, err, s⟩
    rw [hr] at hs
    cases err with
    | none =>
      simp only at hs
      subst hs
      rcases h hc with h | h <;> simp [BufW.Step, BufW.all, h]
    | some e =>
      simp only at hs
      rcases h hc with h | h
      · simp only [BufW.Step, BufW.all, h, List.append_nil]
        exact ⟨(List.prefix_append_right_inj _).mpr hs.1, fun hx => hs.2 (List.append_cancel_left hx)⟩
      · subst h
        exact absurd (List.prefix_nil.mp hs.1) hs.2
  · rw [if_neg hc]
    simp [BufW.Step, BufW.all]

theorem BufW.writeAll_spec (cap : Nat) (b : BufW) (bs : List UInt8) :
    b.Step bs (b.writeAll cap bs) := by
  rw [BufW.writeAll]
  by_cases h1 : bs.length < cap - b.buf.length
  · rw [if_pos h1]; simp [BufW.Step, BufW.all]
  · rw [if_neg h1]
    by_cases h2 : cap - b.buf.length < bs.length
    · rw [if_pos h2]
      have hf := b.flushBuf_spec
      have ha := b.flushBuf_all
      rcases hr : b.flushBuf with ⟨_ | e, b'⟩ <;> rw [hr] at hf ha <;> simp only at hf ha ⊢
      · have hw := BufW.writeCold_spec cap b' bs fun _ => .inl hf.2
        simpa only [BufW.Step, ha] using hw
      · simp only [BufW.Step, ha]
        refine ⟨List.prefix_append _ _, fun hx => ?_⟩
        have := congrArg List.length hx
        simp at this
        simp [this] at h2
    · rw [if_neg h2]
      refine BufW.writeCold_spec cap b bs fun hc => ?_
      by_cases hb : b.buf = []
      · exact .inl hb
      · have : 0 < b.buf.length := List.length_pos_iff.mpr hb
        exact .inr (List.length_eq_zero_iff.mp (by omega))

theorem BufW.writeAll_bound (cap : Nat) (b : BufW) (bs : List UInt8) (h : b.buf.length ≤ cap) :
    (b.writeAll cap bs).2.buf.length ≤ cap := by
  have hcold : ∀ c : BufW, c.buf.length ≤ cap → (bs.length < cap → c.buf.length + bs.length ≤ cap) →
      (c.writeCold cap bs).2.buf.length ≤ cap := by
    intro c h1 h2
    rw [BufW.writeCold]
    by_cases hc : cap ≤ bs.length
    · rw [if_pos hc]; exact h1
    · rw [if_neg hc]; simp; exact h2 (by omega)
  rw [BufW.writeAll]
  by_cases h1 : bs.length < cap - b.buf.length
  · rw [if_pos h1]; simp; omega
  · rw [if_neg h1]
    by_cases h2 : cap - b.buf.length < bs.length
    · rw [if_pos h2]
      have hf := b.flushBuf_spec
      rcases hr : b.flushBuf with ⟨_ | e, b'⟩ <;> rw [hr] at hf <;> simp only at hf ⊢
      · exact hcold b' (by simp [hf.2]) (by simp [hf.2]; omega)
      · omega
    · rw [if_neg h2]
      exact hcold b h (by omega)

namespace WProg

theorem runBuf_spec {e : IoErr → ε} {p : WProg ε} (hp : Maps e p) (cap : Nat) (b : BufW) :
    ((p.runBuf cap b).1 = p.exec.2 ∧ (p.runBuf cap b).2.all = b.all ++ p.exec.1) ∨
    ((∃ x, (p.runBuf cap b).1 = .err (e x)) ∧
      (p.runBuf cap b).2.all <+: b.all ++ p.exec.1 ∧
      (p.runBuf cap b).2.all ≠ b.all ++ p.exec.1) := by
  induction p generalizing b with
  | done o => exact .inl ⟨rfl, by simp [runBuf, exec]⟩
  | writeAll bs f k ih =>
    have hw := BufW.writeAll_spec cap b bs
    rcases hr : b.writeAll cap bs with ⟨_ | x, b'⟩ <;> rw [hr] at hw <;>
      simp only [BufW.Step] at hw <;> simp only [runBuf, hr, exec]
    · rcases ih hp.2 b' with ⟨h1, h2⟩ | ⟨h1, h2, h3⟩
      · exact .inl ⟨h1, by rw [h2, hw, List.append_assoc]⟩
      · rw [hw, List.append_assoc] at h2 h3
        exact .inr ⟨h1, h2, h3⟩
    · refine .inr ⟨⟨x, by rw [hp.1]⟩, ?_, fun hx => hw.2 ?_⟩
      · rw [← List.append_assoc]; exact hw.1.trans (List.prefix_append _ _)
      · have h1 := hw.1.length_le
        have h2 := congrArg List.length hx
        simp only [List.length_append] at h1 h2
        exact hw.1.eq_of_length (by simp only [List.length_append]; omega)

theorem runBuf_bound (p : WProg ε) (cap : Nat) (b : BufW) (h : b.buf.length ≤ cap) :
    (p.runBuf cap b).2.buf.length ≤ cap := by
  induction p generalizing b with
  | done o => exact h
  | writeAll bs f k ih =>
    have hw := BufW.writeAll_bound cap b bs h
    rcases hr : b.writeAll cap bs with ⟨_ | x, b'⟩ <;> rw [hr] at hw <;> simp only [runBuf, hr]
    · exact ih b' hw
    · exact hw

/-- As long as everything fits, the writer behind is not touched. -/
theorem runBuf_fits (p : WProg ε) (cap : Nat) (b : BufW)
    (h : b.buf.length + p.exec.1.length < cap) :
    p.runBuf cap b = (p.exec.2, { b with buf := b.buf ++ p.exec.1 }) := by
  induction p generalizing b with
  | done o => simp [runBuf, exec]
  | writeAll bs f k ih =>
    simp only [exec, List.length_append] at h
    have hw : b.writeAll cap bs = (none, { b with buf := b.buf ++ bs }) := by
      rw [BufW.writeAll, if_pos (by omega)]
    simp only [runBuf, hw, exec]
    rw [ih _ (by simp; omega)]
    simp

end WProg

theorem BufW.flushBuf_benign (b : BufW) (h : b.rest.Benign) :
    b.flushBuf.1 = none ∧ b.flushBuf.2.rest.Benign := by
  obtain ⟨s, h1, h2⟩ := WScript.writeAll_benign b.buf b.rest h
  simp [BufW.flushBuf, h1, h2]

theorem BufW.writeCold_benign (cap : Nat) (b : BufW) (bs : List UInt8) (h : b.rest.Benign) :
    (b.writeCold cap bs).1 = none ∧ (b.writeCold cap bs).2.rest.Benign := by
  obtain ⟨s, h1, h2⟩ := WScript.writeAll_benign bs b.rest h
  rw [BufW.writeCold]
  by_cases hc : cap ≤ bs.length
  · rw [if_pos hc]; simp [h1, h2]
  · rw [if_neg hc]; exact ⟨rfl, h⟩

theorem BufW.writeAll_benign (cap : Nat) (b : BufW) (bs : List UInt8) (h : b.rest.Benign) :
    (b.writeAll cap bs).1 = none ∧ (b.writeAll cap bs).2.rest.Benign := by
  rw [BufW.writeAll]
  by_cases h1 : bs.length < cap - b.buf.length
  · rw [if_pos h1]; exact ⟨rfl, h⟩
  · rw [if_neg h1]
    by_cases h2 : cap - b.buf.length < bs.length
    · rw [if_pos h2]
      have hf := b.flushBuf_benign h
      rcases hr : b.flushBuf with ⟨_ | e, b'⟩ <;> rw [hr] at hf <;> simp only at hf ⊢
      · exact BufW.writeCold_benign cap b' bs hf.2
      · simp at hf
    · rw [if_neg h2]; exact BufW.writeCold_benign cap b bs h

theorem WProg.runBuf_benign (p : WProg ε) (cap : Nat) (b : BufW) (h : b.rest.Benign) :
    (p.runBuf cap b).1 = p.exec.2 ∧ (p.runBuf cap b).2.rest.Benign := by
  induction p generalizing b with
  | done o => exact ⟨rfl, h⟩
  | writeAll bs f k ih =>
    have hw := BufW.writeAll_benign cap b bs h
    rcases hr : b.writeAll cap bs with ⟨_ | x, b'⟩ <;> rw [hr] at hw <;> simp only [runBuf, hr, exec]
    · exact ih b' hw.2
    · simp at hw

/-! ## `BufReader` -/

/-- The data a `BufReader` is still going to deliver. -/
def BufR.bytes (b : BufR) : List UInt8 := b.buf ++ b.rest.bytes

/-- How the reader behind a `BufReader` ends. -/
def BufR.ending (b : BufR) : Ending := b.rest.ending

theorem BufR.read_bytes {cap n : Nat} (hn : 0 < n) (b : BufR) :
    match BufR.read cap n b with
    | (.ok bs, b') => if bs = [] then b.bytes = [] ∧ b.ending = .eof
        else bs.length ≤ n ∧ b.bytes = bs ++ b'.bytes ∧ b'.ending = b.ending
    | (.interrupted, b') => b'.bytes = b.bytes ∧ b'.ending = b.ending
    | (.fail e, _) => b.bytes = [] ∧ b.ending = .fail e := by
  obtain ⟨buf, s⟩ := b
  by_cases h : buf = []
  · subst h
    by_cases hc : cap ≤ n
    · have hb := Script.read_bytes hn s
      simp only [BufR.read, hc, if_true]
      rcases hr : Script.read n s with ⟨r, s'⟩
      rw [hr] at hb
      cases r <;> simpa [BufR.bytes, BufR.ending] using hb
    · have hb := Script.read_bytes (n := cap) (by omega) s
      simp only [BufR.read, hc, if_true, if_false]
      rcases hr : Script.read cap s with ⟨r, s'⟩
      rw [hr] at hb
      cases r with
      | ok bs =>
        simp only [BufR.bytes, BufR.ending, List.nil_append] at hb ⊢
        by_cases h0 : bs = []
        · subst h0; simpa using hb
        · have h1 : bs.take n ≠ [] := by
            intro hx; rw [List.take_eq_nil_iff] at hx; simp [h0] at hx; omega
          simp only [h0, h1, if_false] at hb ⊢
          refine ⟨by simp; omega, ?_, hb.2.2⟩
          rw [hb.2.1, ← List.append_assoc, List.take_append_drop]
      | interrupted => simpa [BufR.bytes, BufR.ending] using hb
      | fail e => simpa [BufR.bytes, BufR.ending] using hb
  · have h1 : buf.take n ≠ [] := by
      intro hx; rw [List.take_eq_nil_iff] at hx; simp [h] at hx; omega
    simp only [BufR.read, h, if_false, h1, BufR.bytes, BufR.ending]
    refine ⟨by simp; omega, ?_, trivial⟩
    rw [← List.append_assoc, List.take_append_drop]

theorem BufR.readExact_spec (cap n : Nat) (acc : List UInt8) (s : BufR) :
    (n ≤ s.bytes.length → ∃ s', BufR.readExact cap n acc s = .ok (acc ++ s.bytes.take n) s' ∧
        s'.bytes = s.bytes.drop n ∧ s'.ending = s.ending) ∧
    (s.bytes.length < n → BufR.readExact cap n acc s = .err s.ending.shortErr) := by
  induction h : BufR.weight s using Nat.strongRecOn generalizing n acc s with
  | _ w ih =>
    subst h
    rw [BufR.readExact]
    by_cases hn : n = 0
    · subst hn
      simp
    · simp only [hn, dite_false]
      by_cases hs : s = ⟨[], []⟩
      · subst hs
        simp [BufR.bytes, BufR.ending, Script.bytes, Script.ending, Ending.shortErr]
        omega
      · simp only [hs, dite_false]
        have hw := BufR.read_weight (cap := cap) (Nat.pos_of_ne_zero hn) s hs
        have hb := BufR.read_bytes (cap := cap) (Nat.pos_of_ne_zero hn) s
        split
        · rename_i bs s' heq
          rw [heq] at hw hb
          simp only at hb hw
          split
          · rename_i h0
            simp only [h0, if_true] at hb
            refine ⟨fun hle => ?_, fun _ => by simp [hb.2, Ending.shortErr]⟩
            simp [hb.1] at hle; omega
          · rename_i h0
            simp only [h0, if_false] at hb
            obtain ⟨hb1, hb2, hb3⟩ := hb
            have hbl : 0 < bs.length := List.length_pos_iff.mpr h0
            obtain ⟨i1, i2⟩ := ih _ hw (n - bs.length) (acc ++ bs) s' rfl
            rw [hb2]
            constructor
            · intro hle
              simp only [List.length_append] at hle
              obtain ⟨s'', e1, e2, e3⟩ := i1 (by omega)
              refine ⟨s'', ?_, ?_, by rw [e3, hb3]⟩
              · rw [e1, List.take_append, List.take_of_length_le hb1, List.append_assoc]
              · rw [e2, List.drop_append, List.drop_of_length_le hb1, List.nil_append]
            · intro hlt
              simp only [List.length_append] at hlt
              rw [i2 (by omega), hb3]
        · rename_i s' heq
          rw [heq] at hw hb
          simp only at hb hw
          obtain ⟨i1, i2⟩ := ih _ hw n acc s' rfl
          rw [hb.1, hb.2] at i1
          rw [hb.1, hb.2] at i2
          exact ⟨i1, i2⟩
        · rename_i e s' heq
          rw [heq] at hb
          simp only at hb
          refine ⟨fun hle => ?_, fun _ => by simp [hb.2, Ending.shortErr]⟩
          simp [hb.1] at hle; omega

theorem BufR.takeToEnd_spec (cap : Nat) (size : Nat → Nat) (i n : Nat) (acc : List UInt8) (s : BufR) :
    (n ≤ s.bytes.length → ∃ s', BufR.takeToEnd cap size i n acc s = .ok (acc ++ s.bytes.take n) s' ∧
        s'.bytes = s.bytes.drop n ∧ s'.ending = s.ending) ∧
    (s.bytes.length < n → ∀ e, s.ending = .fail e → BufR.takeToEnd cap size i n acc s = .err e) ∧
    (s.bytes.length < n → s.ending = .eof →
      ∃ s', BufR.takeToEnd cap size i n acc s = .ok (acc ++ s.bytes) s') := by
  induction h : BufR.weight s using Nat.strongRecOn generalizing i n acc s with
  | _ w ih =>
    subst h
    rw [BufR.takeToEnd]
    by_cases hn : n = 0
    · subst hn
      simp
    · simp only [hn, dite_false]
      by_cases hs : s = ⟨[], []⟩
      · subst hs
        simp [BufR.bytes, BufR.ending, Script.bytes, Script.ending, hn]
      · simp only [hs, dite_false]
        have hm : 0 < min n (size i + 1) := by omega
        have hw := BufR.read_weight (cap := cap) hm s hs
        have hb := BufR.read_bytes (cap := cap) hm s
        split
        · rename_i bs s' heq
          rw [heq] at hw hb
          simp only at hb hw
          split
          · rename_i h0
            simp only [h0, if_true] at hb
            refine ⟨fun hle => ?_, fun _ e he => by simp [hb.2] at he, fun _ _ => ⟨s', by simp [hb.1]⟩⟩
            simp [hb.1] at hle; omega
          · rename_i h0
            simp only [h0, if_false] at hb
            obtain ⟨hb1, hb2, hb3⟩ := hb
            have hbl : 0 < bs.length := List.length_pos_iff.mpr h0
            obtain ⟨i1, i2, i3⟩ := ih _ hw (i + 1) (n - bs.length) (acc ++ bs) s' rfl
            rw [hb2]
            refine ⟨?_, ?_, ?_⟩
            · intro hle
              simp only [List.length_append] at hle
              obtain ⟨s'', e1, e2, e3⟩ := i1 (by omega)
              refine ⟨s'', ?_, ?_, by rw [e3, hb3]⟩
              · rw [e1, List.take_append, List.take_of_length_le (by omega : bs.length ≤ n),
                  List.append_assoc]
              · rw [e2, List.drop_append, List.drop_of_length_le (by omega : bs.length ≤ n),
                  List.nil_append]
            · intro hlt e he
              simp only [List.length_append] at hlt
              exact i2 (by omega) e (by rw [hb3, he])
            · intro hlt he
              simp only [List.length_append] at hlt
              obtain ⟨s'', e1⟩ := i3 (by omega) (by rw [hb3, he])
              exact ⟨s'', by rw [e1, List.append_assoc]⟩
        · rename_i s' heq
          rw [heq] at hw hb
          simp only at hb hw
          obtain ⟨i1, i2, i3⟩ := ih _ hw (i + 1) n acc s' rfl
          rw [hb.1, hb.2] at i1
          rw [hb.1, hb.2] at i2
          rw [hb.1, hb.2] at i3
          exact ⟨i1, i2, i3⟩
        · rename_i e s' heq
          rw [heq] at hb
          simp only at hb
          refine ⟨fun hle => ?_, fun _ e' he => by simp [hb.2] at he; rw [he],
            fun _ he => by simp [hb.2] at he⟩
          simp [hb.1] at hle; omega

/-- Through a `BufReader` a strict decoder behaves as on the bytes the reader delivers;
the unread data stay in the `BufReader`. -/
theorem Prog.runBuf_spec {e : IoErr → ε} (t : Target) (cap : Nat) (size : Nat → Nat) {p : Prog ε α}
    (hp : Strict e p) (s : BufR) :
    match exec t s.ending p s.bytes with
    | .ok (a, rest) => ∃ s', runBuf t cap size p s = .ok (a, s') ∧ s'.bytes = rest ∧
        s'.ending = s.ending
    | .err x => runBuf t cap size p s = .err x
    | .panic q => runBuf t cap size p s = .panic q := by
  induction p generalizing s with
  | done o => cases o <;> simp [exec, runBuf]
  | readExact n onErr k ih =>
    obtain ⟨h1, h2⟩ := BufR.readExact_spec cap n [] s
    simp only [exec, runBuf]
    by_cases hn : n ≤ s.bytes.length
    · obtain ⟨s', e1, e2, e3⟩ := h1 hn
      have hl : n = ([] ++ s.bytes.take n).length := by simp; omega
      rw [dif_pos hn, e1]
      simp only [dif_pos hl]
      have := ih (takeVec s.bytes hn) (hp.2 _) s'
      rw [e2, e3] at this
      have hv : (hl ▸ ⟨([] ++ s.bytes.take n).toArray, rfl⟩ : Vector UInt8 n)
          = takeVec s.bytes hn := by
        apply Vector.toArray_inj.mp
        simp only [takeVec, List.nil_append]
        have key : ∀ (m : Nat) (l : List UInt8) (h : m = l.length),
            (h ▸ (⟨l.toArray, rfl⟩ : Vector UInt8 l.length) : Vector UInt8 m).toArray = l.toArray := by
          intro m l h; subst h; rfl
        exact key n _ (by simpa using hl)
      rw [hv]
      exact this
    · rw [dif_neg hn, h2 (by omega)]
  | takeToEnd n onErr k ih =>
    obtain ⟨h1, h2, h3⟩ := BufR.takeToEnd_spec cap size 0 n [] s
    simp only [exec, runBuf]
    by_cases hn : n ≤ s.bytes.length
    · obtain ⟨s', e1, e2, e3⟩ := h1 hn
      rw [if_pos hn, e1]
      have := ih (s.bytes.take n) (hp.2.2 _) s'
      rw [e2, e3] at this
      simpa using this
    · rw [if_neg hn]
      cases hE : s.ending with
      | eof =>
        obtain ⟨s', e1⟩ := h3 (by omega) hE
        rw [e1]
        simp only [hp.2.1 s.bytes (by omega), List.nil_append, exec, runBuf]
      | fail x =>
        rw [h2 (by omega) x hE]
  | alloc n k ih =>
    simp only [exec, runBuf]
    cases t.allocate n with
    | some q => simp
    | none => exact ih hp s

end Dlhn
