import Verif.Proof.Adapters
import Verif.Props.AnyReader
/-!
# C118: readers put together with `take`, `chain` and `BufReader`

`Rdr` (Model/Adapters.lean) is any combination of these adapters around readers with any
behaviour; `Rdr.bytes` (Spec/Adapters.lean) is what it delivers.
-/
namespace Dlhn.Props

open Spec De

/-- A run that accounts for its outcome by the bytes delivered. -/
theorem stack_of_strict {α : Type} {t : Target} {p : Prog DeErr α} (hp : Prog.Strict orRead p)
    {r r' : Rdr} {cs : List ReadRes} {o : Outcome DeErr α} (h : Runs Rdr.step t p r cs o r') :
    Prog.run t p r.bytes = o.map (fun v => (v, r'.bytes)) ∧
      ((∃ v, o = .ok v) → r'.ending = r.ending) := by
  have hc := h.consumes
  rcases h.stopped Rdr.lawful (.inl hp) with hr | ⟨x, h1, h2, h3⟩
  · have hd := hc.1 hr
    refine ⟨?_, fun _ => by rw [Rdr.ending, Rdr.ending, hd]⟩
    rw [Rdr.bytes, hd]
    exact Prog.run_complete (h.complete Rdr.lawful hr _)
  · have hd := hc.2.1 x h1
    refine ⟨?_, fun ⟨v, hv⟩ => by rw [h2] at hv; cases hv⟩
    rw [Rdr.bytes, hd, h2]
    exact Prog.run_incomplete hp h3

/-- Decoding from any combination of adapters is decoding what it delivers; what is left
is what is left of that, and ends in the same way. -/
theorem C118_stack (t : Target) (ty : Ty)
    (ht : t.ptr = .w64 ∨ NoText ty) {r r' : Rdr} {cs : List ReadRes}
    {o : Outcome DeErr Val} (h : Runs Rdr.step t (de t ty) r cs o r') :
    Prog.run t (de t ty) r.bytes = o.map (fun v => (v, r'.bytes)) ∧
      ((∃ v, o = .ok v) → r'.ending = r.ending) :=
  stack_of_strict (strict_on ht) h

/-- On every target for types without text. -/
theorem C118_stack_any (t : Target) (ty : Ty) (hty : NoText ty) {r r' : Rdr}
    {cs : List ReadRes} {o : Outcome DeErr Val} (h : Runs Rdr.step t (de t ty) r cs o r') :
    Prog.run t (de t ty) r.bytes = o.map (fun v => (v, r'.bytes)) ∧
      ((∃ v, o = .ok v) → r'.ending = r.ending) :=
  stack_of_strict (strict_noText t ty hty) h

/-- The same for every `Deserialize` implementation. -/
theorem C118_stack_impl (t : Target) {α : Type} (i : Impl α)
    (ht : t.ptr = .w64 ∨ NoTextImpl i) {r r' : Rdr}
    {cs : List ReadRes} {o : Outcome DeErr α} (h : Runs Rdr.step t (i.run t) r cs o r') :
    Prog.run t (i.run t) r.bytes = o.map (fun v => (v, r'.bytes)) ∧
      ((∃ v, o = .ok v) → r'.ending = r.ending) :=
  stack_of_strict (strict_on_impl ht) h

/-- And there is such a run: decoding from them ends. -/
theorem C118_ends (t : Target) {ε α : Type} (p : Prog ε α) (r : Rdr) :
    ∃ cs o r', Runs Rdr.step t p r cs o r' :=
  Runs.exists Rdr.lawful Rdr.live t p r

/-- On every target, what was written is read back through any of them. -/
theorem C118_written (t : Target) (hm : 4096 ≤ t.memLimit) (ty : Ty) (hs : Supported ty) (v : Val)
    (hv : Has t ty v) (rest : List UInt8) {r r' : Rdr} {cs : List ReadRes}
    {o : Outcome DeErr Val} (hb : r.bytes = (Ser.toVec v).1 ++ rest)
    (h : Runs Rdr.step t (de t ty) r cs o r') :
    o = .ok v ∧ r'.bytes = rest ∧ r'.ending = r.ending := by
  obtain ⟨enc, h1, h2⟩ := C07_roundtrip t hm ty hs v hv
  rw [h1] at hb
  have hx := Prog.complete_of_rest t (h2 [0]) (by simp)
  obtain ⟨used, e1, e2, -⟩ := Prog.complete_split t hx
  rw [← List.append_cancel_right e1] at e2
  have hc := h.consumes
  have hpre : before cs <+: enc ++ rest := by rw [← hb]; exact hc.2.2
  rcases h.written Rdr.lawful (tame_de t ty) (e2 rest) hpre with ⟨i1, i2, i3⟩ | ⟨-, i2, i3, x, i4⟩
  · have hd := hc.1 i3
    rw [Rdr.bytes, hd, i2] at hb
    exact ⟨i1, List.append_cancel_left hb, by rw [Rdr.ending, Rdr.ending, hd]⟩
  · rw [Rdr.bytes, hc.2.1 x i4] at hb
    simp only at hb
    rw [hb] at i2 i3
    have := i2.length_le
    simp only [List.length_append] at this
    have hr : rest = [] := List.length_eq_zero_iff.mp (by omega)
    exact (i3 (by rw [hr, List.append_nil])).elim

/-- On every target: if they deliver only a part of what was written, the outcome is
`Err(Read)`. -/
theorem C118_cut (t : Target) (hm : 4096 ≤ t.memLimit) (ty : Ty) (hs : Supported ty) (v : Val)
    (hv : Has t ty v) {r r' : Rdr} {cs : List ReadRes} {o : Outcome DeErr Val}
    (hb : r.bytes <+: (Ser.toVec v).1) (hne : r.bytes ≠ (Ser.toVec v).1)
    (h : Runs Rdr.step t (de t ty) r cs o r') : o = .err .read := by
  obtain ⟨enc, h1, h2⟩ := C07_roundtrip t hm ty hs v hv
  rw [h1] at hb hne
  have hx := Prog.complete_of_rest t (h2 [0]) (by simp)
  obtain ⟨used, e1, e2, -⟩ := Prog.complete_split t hx
  rw [← List.append_cancel_right e1] at e2
  have hc := h.consumes
  have hpre : before cs <+: enc ++ [] := by
    rw [List.append_nil]; exact hc.2.2.trans hb
  rcases h.written Rdr.lawful (tame_de t ty) (e2 []) hpre with ⟨-, i2, i3⟩ | ⟨i1, -⟩
  · have hd := hc.1 i3
    rw [Rdr.bytes, hd, i2] at hb hne
    have := hb.length_le
    simp only [List.length_append] at this
    exact (hne (by rw [List.length_eq_zero_iff.mp (by omega : r'.delivers.1.length = 0),
      List.append_nil])).elim
  · exact i1

/-! ## `take` -/

/-- A value that fits within the limit is decoded as without it; the reader behind the
`take` is left right behind the value, and the limit has gone down by its length. -/
theorem C118_take_fits (t : Target) (ty : Ty) (ht : t.ptr = .w64 ∨ NoText ty) (n : Nat) {q r' : Rdr}
    {cs : List ReadRes} {o : Outcome DeErr Val} (used rest : List UInt8) (v : Val)
    (hq : q.bytes = used ++ rest) (hd : Prog.run t (de t ty) q.bytes = .ok (v, rest))
    (hn : used.length ≤ n) (h : Runs Rdr.step t (de t ty) (.take n q) cs o r') :
    o = .ok v ∧ ∃ q', r' = .take (n - used.length) q' ∧ q'.bytes = rest := by
  obtain ⟨u, h1, h2⟩ := C11_locality t ty ht _ _ _ hd
  have hu : u = used := List.append_cancel_right (h1.symm.trans hq)
  subst hu
  have hb : (Rdr.take n q).bytes = u ++ rest.take (n - u.length) := by
    show q.bytes.take n = _
    rw [hq, List.take_append, List.take_of_length_le hn]
  have hs := (C118_stack t ty ht h).1
  rw [hb, h2] at hs
  cases o with
  | ok w =>
    simp only [Outcome.map, Outcome.ok.injEq, Prod.mk.injEq] at hs
    refine ⟨by rw [hs.1], ?_⟩
    rcases h.stopped Rdr.lawful (.inl (strict_on ht)) with hr | ⟨x, -, hx, -⟩
    · have hc := h.consumes.1 hr
      have hh : handed cs = u := by
        have : (Rdr.take n q).bytes = handed cs ++ r'.bytes := by rw [Rdr.bytes, hc]; rfl
        rw [hb, hs.2] at this
        exact (List.append_cancel_right this).symm
      obtain ⟨n', q', e1, e2, e3⟩ := h.limits n q rfl
      rw [hh] at e2 e3
      have e4 := e3 (.inr hr)
      rw [hq] at e4
      exact ⟨q', by rw [e1]; congr 1; omega, (List.append_cancel_left e4).symm⟩
    · cases hx
  | err e => cases hs
  | panic x => cases hs

/-- A value longer than the limit is not decoded: the outcome is `Err(Read)`. -/
theorem C118_take_short (t : Target) (ty : Ty)
    (ht : t.ptr = .w64 ∨ NoText ty) (n : Nat) {q r' : Rdr}
    {cs : List ReadRes} {o : Outcome DeErr Val} (used rest : List UInt8) (v : Val)
    (hq : q.bytes = used ++ rest) (hd : Prog.run t (de t ty) q.bytes = .ok (v, rest))
    (hn : n < used.length) (h : Runs Rdr.step t (de t ty) (.take n q) cs o r') :
    o = .err .read := by
  have hs := (C118_stack t ty ht h).1
  have hx := C10_truncation_in_stream t ty ht _ _ _ hd n (by rw [hq]; simp; omega)
  have hb : (Rdr.take n q).bytes = q.bytes.take n := rfl
  rw [hb, hx] at hs
  cases o with
  | ok w => cases hs
  | err e => simp only [Outcome.map, Outcome.err.injEq] at hs; rw [hs]
  | panic x => cases hs

/-- A `take` keeps a sender's frames apart on every target, whatever decoder is run on one of
them and whatever the outcome is, even a panic that is caught: reading the rest of
the frame leaves the reader at the next one. -/
theorem C118_frame (t : Target) {ε α : Type} (p : Prog ε α) (n lim : Nat) {q r' r'' : Rdr}
    {cs ds : List ReadRes} {o : Outcome ε α} {x : Except IoErr (List UInt8)}
    (hn : n ≤ q.bytes.length) (h : Runs Rdr.step t p (.take n q) cs o r') (hlim : n < lim)
    (hd : ReadsToEnd Rdr.step lim [] r' ds x r'') :
    (handed cs ++ handed ds = q.bytes.take n ∧ x = .ok (handed ds)) ∧
    ∃ q'', r'' = .take 0 q'' ∧ q''.bytes = q.bytes.drop n := by
  obtain ⟨n', q', rfl, e2, e3⟩ := h.limits n q rfl
  obtain ⟨n'', q'', rfl, f2, f3⟩ := hd.limits n' q' rfl
  have e4 := e3 (.inl hn)
  have hn' : n' ≤ q'.bytes.length := by rw [e4] at hn; simp at hn; omega
  have f4 := f3 (.inl hn')
  have hdel : (Rdr.take n' q').delivers = (q'.bytes.take n', .eof) := by
    rw [Rdr.bytes] at hn'
    simp only [Rdr.delivers]; rw [if_pos hn']; rfl
  have fin : ∀ y, Stopped ds y → n'' = 0 ∧ y = .eof := by
    intro y hy
    have := hd.consumes.2.1 y hy
    rw [hdel] at this
    simp only [Prod.mk.injEq] at this
    have hl := congrArg List.length this.1
    simp only [List.length_take] at hl
    exact ⟨by omega, this.2.symm⟩
  have hx : n'' = 0 ∧ x = .ok (handed ds) := by
    rcases hd.spec Rdr.lawful with ⟨-, -, h3⟩ | ⟨h1, h2, -⟩ | ⟨e, h1, -, -⟩
    · omega
    · exact ⟨(fin _ h1).1, by simpa using h2⟩
    · have := (fin _ h1).2; cases this
  obtain ⟨rfl, hx⟩ := hx
  have hall : q.bytes = (handed cs ++ handed ds) ++ q''.bytes := by
    rw [e4, f4, List.append_assoc]
  have hlen : (handed cs ++ handed ds).length = n := by simp; omega
  refine ⟨⟨?_, hx⟩, q'', rfl, ?_⟩
  · rw [hall, List.take_append_of_le_length (by omega), List.take_of_length_le (by omega)]
  · rw [hall, List.drop_append_of_le_length (by omega), List.drop_of_length_le (by omega)]; rfl

/-! ## `chain` -/

/-- A value may begin in one reader and end in the next: if the first ends properly,
decoding from the two is decoding their data joined. -/
theorem C118_chain (t : Target) (ty : Ty)
    (ht : t.ptr = .w64 ∨ NoText ty) {a b r' : Rdr} {cs : List ReadRes}
    {o : Outcome DeErr Val} (ha : a.ending = .eof)
    (h : Runs Rdr.step t (de t ty) (.chain false a b) cs o r') :
    Prog.run t (de t ty) (a.bytes ++ b.bytes) = o.map (fun v => (v, r'.bytes)) := by
  have hb : (Rdr.chain false a b).bytes = a.bytes ++ b.bytes := by
    have : a.delivers = (a.bytes, .eof) := by rw [← ha]; rfl
    simp only [Rdr.bytes, Rdr.delivers]
    rw [this]
  rw [← hb]
  exact (C118_stack t ty ht h).1

/-- If the first fails, the data of the second are not used in its place. -/
theorem C118_chain_fails (t : Target) (ty : Ty) (ht : t.ptr = .w64 ∨ NoText ty) {a b r' : Rdr}
    {cs : List ReadRes} {o : Outcome DeErr Val} (e : IoErr) (ha : a.ending = .fail e)
    (h : Runs Rdr.step t (de t ty) (.chain false a b) cs o r') :
    Prog.run t (de t ty) a.bytes = o.map (fun v => (v, r'.bytes)) := by
  have hb : (Rdr.chain false a b).bytes = a.bytes := by
    have : a.delivers = (a.bytes, .fail e) := by rw [← ha]; rfl
    simp only [Rdr.bytes, Rdr.delivers]
    rw [this]
  rw [← hb]
  exact (C118_stack t ty ht h).1

/-! ## Examples -/

/-- A string whose length is the last byte of one reader; the second is interrupted, read
through a buffer of three bytes, and limited to what belongs to the string and two
bytes more. -/
def sampleRdr : Rdr :=
  .chain false (.base [.data [3]])
    (.take 5 (.buffered 3 [] (.base [.interrupted, .data [97, 98], .data [99, 7, 8, 9]])))

example : sampleRdr.bytes = (Ser.toVec (.str "abc")).1 ++ [7, 8] ∧ sampleRdr.ending = .eof := by
  decide +kernel

/-- It is read back. -/
example (t : Target) (hm : 4096 ≤ t.memLimit) : ∃ cs r',
    Runs Rdr.step t (de t .string) sampleRdr cs (.ok (.str "abc")) r' ∧ r'.bytes = [7, 8] := by
  obtain ⟨cs, o, r', h⟩ := C118_ends t (de t .string) sampleRdr
  obtain ⟨h1, h2, -⟩ := C118_written t hm .string (by simp [Supported]) (.str "abc")
    (by simp [Has]; exact Nat.lt_of_lt_of_le (by decide : _ < 2 ^ 32) (bits_ge t))
    [7, 8] (by decide +kernel) h
  subst h1
  exact ⟨cs, r', h, h2⟩

/-- The hypotheses of `C118_take_fits` and `C118_take_short`: a `u16` of two bytes, with a
limit of two and of one. -/
example : Prog.run ⟨.w64, 4096⟩ (de ⟨.w64, 4096⟩ .u16) ([133, 1] ++ [9]) = .ok (.u16 69, [9]) := by
  rfl

/-- `C118_frame`: a frame of three bytes holding a `u8` and two bytes the receiver does not
know, and then another frame. Such runs exist. -/
example (t : Target) : ∃ cs o r' ds x r'',
    Runs Rdr.step t (de t .u8) (.take 3 (.base [.data [1, 2], .interrupted, .data [3, 4]])) cs o r' ∧
    ReadsToEnd Rdr.step 4 [] r' ds x r'' ∧ ∃ q'', r'' = .take 0 q'' ∧ q''.bytes = [4] := by
  obtain ⟨cs, o, r', h⟩ := C118_ends t (de t .u8)
    (.take 3 (.base [.data [1, 2], .interrupted, .data [3, 4]]))
  obtain ⟨ds, x, r'', hd⟩ := ReadsToEnd.exists Rdr.live 4 [] r'
  exact ⟨cs, o, r', ds, x, r'', h, hd, (C118_frame t _ 3 4 (by decide) h (by decide) hd).2⟩

end Dlhn.Props
