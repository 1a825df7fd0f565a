import Verif.Proof.Log
import Verif.Proof.AnyWriter
import Verif.Props.AnyReader
import Verif.Props.AnyWriter
import Verif.Props.Bounds
import Verif.Props.Collect
import Verif.Props.Targets
/-!
# C130: reading a stream to its end

`ReadsOut step t p s cs vs e s'` (Spec/Log.lean) is the caller's loop that deserializes values
from one reader until that fails: the values `vs`, the error `e`, and the answers `cs` of all
`read` calls, the bytes of which are `handed cs`. `CompleteIn` (Spec/Collect.lean) says which
values have all their bytes among given data. `fileStep` is a file; `Lives` is a history of a log
file and the processes that wrote to it.
-/
namespace Dlhn.Props

open Spec De

variable {σ : Type} {step : RStep σ}

theorem complete_of_has (t : Target) (hm : 4096 ≤ t.memLimit) (ty : Ty) (hs : Supported ty)
    (v : Val) (hv : Has t ty v) (more : List UInt8) :
    (de t ty).complete t ((Ser.toVec v).1 ++ more) = some (.ok v, more) := by
  obtain ⟨enc, h1, h2⟩ := C07_roundtrip t hm ty hs v hv
  rw [h1]
  have hx := Prog.complete_of_rest t (h2 [0]) (by simp)
  obtain ⟨used, e1, e2, -⟩ := Prog.complete_split t hx
  rw [← List.append_cancel_right e1] at e2
  exact e2 more

theorem nonempty_of_has (t : Target) (ty : Ty) (hs : Supported ty) (h0 : 0 < minSize ty)
    (v : Val) (hv : Has t ty v) : (Ser.toVec v).1 ≠ [] := by
  obtain ⟨enc, h1, h2, -⟩ := C103_typed t ty hs v hv
  rw [h1]
  intro h
  have h : enc = [] := h
  rw [h] at h2
  simp at h2
  omega

/-- A reader that delivers values written one after the other, or a beginning of that, in
whatever way it likes: the loop returns exactly the values of which all bytes were delivered,
and `Err(Read)`, because the reader ended or failed. -/
theorem C130_reader (hl : step.Lawful) (t : Target) (hm : 4096 ≤ t.memLimit) (ty : Ty)
    (hs : Supported ty) (h0 : 0 < minSize ty) (hi : ∃ w, Has t ty w) (sent : List Val)
    (hv : ∀ v ∈ sent, Has t ty v) {s s' : σ} {cs : List ReadRes} {vs : List Val} {e : DeErr}
    (h : ReadsOut step t (de t ty) s cs vs e s')
    (hc : handed cs <+: (sent.map fun v => (Ser.toVec v).1).flatten) :
    e = .read ∧ (∃ c, cs.getLast? = some c ∧ c.ends ≠ none) ∧
      ∃ left, CompleteIn (fun v => (Ser.toVec v).1) sent (handed cs) vs left := by
  obtain ⟨w, hw⟩ := hi
  obtain ⟨h1, h2, us, left, h3, h4⟩ := h.written hl (tame_de t ty) (fun v => (Ser.toVec v).1) id
    ⟨w, w, nonempty_of_has t ty hs h0 w hw, complete_of_has t hm ty hs w hw⟩ sent
    (fun v hx => complete_of_has t hm ty hs v (hv v hx)) hc
  rw [List.map_id] at h3
  exact ⟨h1, h2, left, h3 ▸ h4⟩

/-- A file that holds values written one after the other, or a beginning of that: the loop
ends, and returns exactly the values that are all there. The error at the regular end is the one
at a torn value. -/
theorem C130_file (t : Target) (hm : 4096 ≤ t.memLimit) (ty : Ty) (hs : Supported ty)
    (h0 : 0 < minSize ty) (hi : ∃ w, Has t ty w) (sent : List Val) (hv : ∀ v ∈ sent, Has t ty v)
    (data : List UInt8) (hd : data <+: (sent.map fun v => (Ser.toVec v).1).flatten)
    {cs : List ReadRes} {vs : List Val} {e : DeErr} {s' : List UInt8}
    (h : ReadsOut fileStep t (de t ty) data cs vs e s') :
    e = .read ∧ s' = [] ∧ ∃ left, CompleteIn (fun v => (Ser.toVec v).1) sent data vs left := by
  obtain ⟨h1, h2⟩ := h.file
  have hp : handed cs <+: (sent.map fun v => (Ser.toVec v).1).flatten :=
    List.IsPrefix.trans ⟨s', h1.symm⟩ hd
  obtain ⟨i1, i2, left, i3⟩ := C130_reader fileStep_lawful t hm ty hs h0 hi sent hv h hp
  have hs' := h2 i2
  subst hs'
  rw [List.append_nil] at h1
  exact ⟨i1, rfl, left, h1 ▸ i3⟩

/-- So a file that holds everything gives everything. -/
theorem C130_all (t : Target) (hm : 4096 ≤ t.memLimit) (ty : Ty) (hs : Supported ty)
    (h0 : 0 < minSize ty) (hi : ∃ w, Has t ty w) (sent : List Val) (hv : ∀ v ∈ sent, Has t ty v)
    {cs : List ReadRes} {vs : List Val} {e : DeErr} {s' : List UInt8}
    (h : ReadsOut fileStep t (de t ty) (sent.map fun v => (Ser.toVec v).1).flatten cs vs e s') :
    vs = sent ∧ e = .read ∧ s' = [] := by
  obtain ⟨h1, h2, left, h3⟩ :=
    C130_file t hm ty hs h0 hi sent hv _ (List.prefix_refl _) h
  exact ⟨(h3.all rfl).1, h1, h2⟩

/-- The loop ends on every reader that always answers, is not interrupted without end and has
finitely many bytes, whatever they are. (64-bit targets, or types without text.) -/
theorem C130_ends (hl : step.Lawful) (hlive : step.Live) {room : σ → Nat} (hr : step.Holds room)
    (t : Target) (hm : 4096 ≤ t.memLimit) (ty : Ty) (ht : t.ptr = .w64 ∨ NoText ty)
    (hs : Supported ty) (h0 : 0 < minSize ty) (s : σ) :
    ∃ cs vs e s', ReadsOut step t (de t ty) s cs vs e s' := by
  refine ReadsOut.exists hl hlive hr (fun {s s' cs o} h => ?_) s
  have hx : Explained t (de t ty) cs o :=
    C117_typed hl t ty ht h
  have hret := C13_no_panic_supported t hm ty hs (handed cs)
  cases o with
  | ok v =>
    have := C103_consumes t ty hs .eof (handed cs) [] v hx.1
    exact .inl ⟨v, rfl, by simp at this; omega⟩
  | err e => exact .inr ⟨e, rfl⟩
  | panic q => rw [hx.1] at hret; exact hret.elim

/-- And it returns no more values than the bytes that were delivered allow. -/
theorem C130_bounded (hl : step.Lawful) (t : Target) (ty : Ty) (ht : t.ptr = .w64 ∨ NoText ty)
    (hs : Supported ty) {s s' : σ} {cs : List ReadRes} {vs : List Val} {e : DeErr}
    (h : ReadsOut step t (de t ty) s cs vs e s') :
    vs.length * minSize ty ≤ (handed cs).length := by
  induction h with
  | stop h => simp
  | @next s s' s'' cs ds v vs e h more ih =>
    have hx : Explained t (de t ty) cs (.ok v) :=
      C117_typed hl t ty ht h
    have := C103_consumes t ty hs .eof (handed cs) [] v hx.1
    rw [handed_append, List.length_append, List.length_cons, Nat.succ_mul]
    simp at this
    omega

/-- A file of strings of which the last is torn, on a 32-bit target. -/
example {cs : List ReadRes} {vs : List Val} {e : DeErr} {s' : List UInt8}
    (h : ReadsOut fileStep ⟨.w32, 4096⟩ (de ⟨.w32, 4096⟩ .string) [2, 97, 98, 0, 3, 99] cs vs e s') :
    vs = [.str "ab", .str ""] ∧ e = .read := by
  obtain ⟨h1, -, left, h3, h4, h5⟩ := C130_file _ (by decide) .string trivial (by decide)
    ⟨.str "", _, rfl, by decide +kernel⟩ [.str "ab", .str "", .str "cde"]
    (by intro v hv; simp only [List.mem_cons, List.not_mem_nil, or_false] at hv
        rcases hv with rfl | rfl | rfl <;> exact ⟨_, rfl, by decide +kernel⟩) _
    (by decide +kernel) h
  refine ⟨?_, h1⟩
  have e0 : (Ser.toVec (.str "ab")).1 = [2, 97, 98] := by decide +kernel
  have e1 : (Ser.toVec (.str "")).1 = [0] := by decide +kernel
  have e2 : (Ser.toVec (.str "cde")).1 = [3, 99, 100, 101] := by decide +kernel
  obtain ⟨more, hmore⟩ := h3
  match vs, hmore with
  | [], hmore =>
    obtain ⟨k1, k2⟩ := h5 (.str "ab") ⟨_, rfl⟩
    have hl := congrArg List.length h4
    have := k1.length_le
    simp [e0] at this hl
    omega
  | [a], hmore =>
    simp only [List.cons_append, List.nil_append, List.cons.injEq] at hmore
    obtain ⟨rfl, rfl⟩ := hmore
    obtain ⟨k1, k2⟩ := h5 (.str "") ⟨_, rfl⟩
    have hl := congrArg List.length h4
    have := k1.length_le
    simp [e0, e1] at this hl
    omega
  | [a, b], hmore =>
    simp only [List.cons_append, List.nil_append, List.cons.injEq] at hmore
    obtain ⟨rfl, rfl, rfl⟩ := hmore
    rfl
  | [a, b, c], hmore =>
    simp only [List.cons_append, List.nil_append, List.cons.injEq] at hmore
    obtain ⟨rfl, rfl, rfl, rfl⟩ := hmore
    have hl := congrArg List.length h4
    simp [e0, e1, e2] at hl
  | a :: b :: c :: d :: l, hmore => simp at hmore

/-- There is such a run. -/
example : ∃ cs vs e s', ReadsOut fileStep ⟨.w64, 4096⟩ (de ⟨.w64, 4096⟩ .string)
    [2, 97, 98, 0, 3, 99] cs vs e s' :=
  C130_ends fileStep_lawful fileStep_live fileStep_holds _ (by decide) .string (.inl rfl) trivial
    (by decide) _

/-- Written by anyone to any writer, which may fail; the process or the machine crashes at any
moment, after the calls `cs₁` of `write`; and whatever reader then delivers what had been
accepted, or the beginning of it. The loop returns the values of which all bytes were delivered:
none is lost, changed, repeated or invented. -/
theorem C130_crash {ω : Type} {wstep : WStep ω} (hl : step.Lawful) (t : Target)
    (hm : 4096 ≤ t.memLimit) (ty : Ty) (hs : Supported ty) (h0 : 0 < minSize ty)
    (hi : ∃ w, Has t ty w) (sent : List Val) (hv : ∀ v ∈ sent, Has t ty v) {a a' : ω}
    {ws ws₁ : List WCall} {o : Outcome SerErr Unit} (hw : WRuns wstep (writeStream sent) a ws o a')
    (hc : ws₁ <+: ws) {s s' : σ} {cs : List ReadRes} {vs : List Val} {e : DeErr}
    (h : ReadsOut step t (de t ty) s cs vs e s') (hd : handed cs <+: accepted ws₁) :
    e = .read ∧ ∃ left, CompleteIn (fun v => (Ser.toVec v).1) sent (handed cs) vs left := by
  have hmaps : ∀ l : List Val, (writeStream l).Maps (fun _ => SerErr.write) := by
    intro l
    induction l with
    | nil => exact trivial
    | cons v l ih => exact (Ser.good_ser v).maps.andThen ih
  have hex : ∀ l : List Val, (∀ v ∈ l, Has t ty v) →
      (writeStream l).exec = ((l.map fun v => (Ser.toVec v).1).flatten, .ok ()) := by
    intro l hl
    induction l with
    | nil => rfl
    | cons v l ih =>
      obtain ⟨enc, h1, -⟩ := C07_roundtrip t hm ty hs v (hl v List.mem_cons_self)
      rw [writeStream, WProg.exec_andThen_ok h1, ih fun u hu => hl u (List.mem_cons_of_mem _ hu),
        List.map_cons, List.flatten_cons, h1]
  have hdel := hw.delivered (hmaps sent)
  rw [hex sent hv] at hdel
  have hp : accepted ws₁ <+: (sent.map fun v => (Ser.toVec v).1).flatten := by
    obtain ⟨ws₂, rfl⟩ := hc
    cases ws₂ with
    | nil =>
      rw [List.append_nil] at hdel
      rcases hdel.2 with ⟨i, -⟩ | ⟨_, _, _, _, -, -, -, -, i, -⟩
      · rw [i]; exact List.prefix_refl _
      · exact i
    | cons c ws₂ =>
      obtain ⟨bs, r⟩ := c
      exact (List.prefix_append _ _).trans (hdel.1 ws₁ bs r ws₂ rfl).2
  obtain ⟨h1, -, h3⟩ := C130_reader hl t hm ty hs h0 hi sent hv h (hd.trans hp)
  exact ⟨h1, h3⟩

/-- Whatever follows values in a file - a torn value, damage, data of something else - the loop
returns them first. -/
theorem C130_kept (hl : step.Lawful) (t : Target) (hm : 4096 ≤ t.memLimit) (ty : Ty)
    (hs : Supported ty) (sent : List Val) (hv : ∀ v ∈ sent, Has t ty v) (rest : List UInt8)
    {s s' : σ} {cs : List ReadRes} {vs : List Val} {e : DeErr}
    (h : ReadsOut step t (de t ty) s cs vs e s')
    (hc : handed cs = (sent.map fun v => (Ser.toVec v).1).flatten ++ rest) : sent <+: vs := by
  obtain ⟨us, hu⟩ := h.kept hl (tame_de t ty) (fun v => (Ser.toVec v).1) id sent rest
    (fun v hx => complete_of_has t hm ty hs v (hv v hx)) hc
  rw [List.map_id] at hu
  exact ⟨us, hu.symm⟩

/-- Appending to a file after a crash: if the bytes behind the last complete value are cut off
first, the loop returns the values that were complete and then the new ones. -/
theorem C130_repaired (t : Target) (hm : 4096 ≤ t.memLimit) (ty : Ty) (hs : Supported ty)
    (h0 : 0 < minSize ty) (hi : ∃ w, Has t ty w) (sent more : List Val)
    (hv : ∀ v ∈ sent, Has t ty v) (hmore : ∀ v ∈ more, Has t ty v) (data : List UInt8)
    (old : List Val) (left : List UInt8)
    (hold : CompleteIn (fun v => (Ser.toVec v).1) sent data old left)
    {cs : List ReadRes} {vs : List Val} {e : DeErr} {s' : List UInt8}
    (h : ReadsOut fileStep t (de t ty) (data.take (data.length - left.length) ++
      (more.map fun v => (Ser.toVec v).1).flatten) cs vs e s') :
    vs = old ++ more ∧ e = .read ∧ s' = [] := by
  obtain ⟨h1, h2, -⟩ := hold
  have hd : data.take (data.length - left.length) = (old.map fun v => (Ser.toVec v).1).flatten := by
    rw [h2, List.length_append, Nat.add_sub_cancel, List.take_left]
  rw [hd, ← List.flatten_append, ← List.map_append] at h
  exact C130_all t hm ty hs h0 hi (old ++ more)
    (fun v hx => (List.mem_append.mp hx).elim (fun hx => hv v (h1.subset hx)) (hmore v)) h

example : CompleteIn (fun v => (Ser.toVec v).1) [.str "ab", .str "cde"] [2, 97, 98, 3, 99]
    [.str "ab"] [3, 99] := by
  refine ⟨⟨_, rfl⟩, by decide +kernel, fun v hv => ?_⟩
  have : v = .str "cde" := by
    obtain ⟨l, hl⟩ := hv
    simp only [List.cons_append, List.nil_append, List.cons.injEq] at hl
    exact hl.2.1
  subst this
  decide +kernel

/-- If they are not cut off, the torn value takes its missing bytes from the new ones: a value
that nobody wrote is returned without an error, and the new one is lost. -/
theorem C130_not_repaired (t : Target) : ∃ torn : List UInt8,
    torn <+: (Ser.toVec (.str "hello")).1 ∧ torn ≠ (Ser.toVec (.str "hello")).1 ∧
    Prog.run t (de t .string) (torn ++ (Ser.toVec (.str "abc")).1) = .ok (.str "he\x03ab", [99]) ∧
    Prog.run t (de t .string) [99] = .err .read := by
  refine ⟨[5, 104, 101], by decide +kernel, by decide +kernel, ?_, ?_⟩
  all_goals obtain ⟨_ | _, m⟩ := t <;> rfl

theorem pointwise_append {α β : Type} {R : α → β → Prop} {xs : List α} {ys : List β} {x : α} {y : β}
    (h : Pointwise R xs ys) (hxy : R x y) : Pointwise R (xs ++ [x]) (ys ++ [y]) := by
  induction xs generalizing ys with
  | nil => cases ys with
    | nil => exact ⟨hxy, trivial⟩
    | cons => exact h.elim
  | cons a xs ih => cases ys with
    | nil => exact h.elim
    | cons b ys => exact ⟨h.1, ih h.2⟩

/-- What a log looks like after any number of lives: complete values and part of one more. -/
theorem lives_complete (t : Target) (hm : 4096 ≤ t.memLimit) (std : OnShort) (ty : Ty)
    (hs : Supported ty) (h0 : 0 < minSize ty) (hi : ∃ w, Has t ty w)
    {lives : List (List Val × List UInt8)} (hv : ∀ l ∈ lives, ∀ v ∈ l.1, Has t ty v)
    {file : List UInt8}
    (hf : Lives ((de t ty).runSlice t std) (fun v => (Ser.toVec v).1) [] lives file) :
    ∃ (kept : List (List Val)) (torn : List UInt8) (w : Val),
      Pointwise (fun l k => ∃ torn, CompleteIn (fun v => (Ser.toVec v).1) l.1 l.2 k torn)
        lives kept ∧
      file = (kept.flatten.map fun v => (Ser.toVec v).1).flatten ++ torn ∧
      (∀ v ∈ kept.flatten, Has t ty v) ∧ Has t ty w ∧ torn <+: (Ser.toVec w).1 ∧
      torn ≠ (Ser.toVec w).1 := by
  obtain ⟨w0, hw0⟩ := hi
  have hn0 := nonempty_of_has t ty hs h0 w0 hw0
  generalize hempty : ([] : List UInt8) = start at hf
  induction hf with
  | none =>
    subst hempty
    exact ⟨[], [], w0, trivial, rfl, by simp, hw0, List.nil_prefix, hn0.symm⟩
  | @one f' f'' written new more first last ih =>
    obtain ⟨kept, torn, w, k1, k2, k3, k4, k5, k6⟩ :=
      ih fun l hl => hv l (List.mem_append_left _ hl)
    have hnew : ∀ v ∈ new, Has t ty v := hv _ (List.mem_append_right _ (List.mem_singleton.mpr rfl))
    cases last with
    | idle =>
      refine ⟨kept ++ [[]], torn, w, pointwise_append k1 ⟨[], List.nil_prefix, rfl, fun v hx => ?_⟩,
        by simpa using k2, by simpa using k3, k4, k5, k6⟩
      have hx : v ∈ new := hx.subset (by simp)
      exact ⟨List.nil_prefix, (nonempty_of_has t ty hs h0 v (hnew v hx)).symm⟩
    | @append left _ _ vs hd hw =>
      have hok : ∀ v ∈ kept.flatten ++ [w], Has t ty v := fun v hx =>
        (List.mem_append.mp hx).elim (k3 v) fun hx => by rw [List.mem_singleton.mp hx]; exact k4
      have hc : CompleteIn (fun v => (Ser.toVec v).1) (kept.flatten ++ [w]) f' kept.flatten torn :=
        ⟨List.prefix_append _ _, k2, fun v hx => by
          rw [List.prefix_append_right_inj] at hx
          have : v = w := by simpa using hx
          exact this ▸ ⟨k5, k6⟩⟩
      have hpre : f' <+: ((kept.flatten ++ [w]).map fun v => (Ser.toVec v).1).flatten := by
        rw [k2, List.map_append, List.flatten_append, List.prefix_append_right_inj]
        simpa using k5
      have a1 := (C108_typed t hm std ty hs h0 _ (by simp) hok [f'] (by simpa using hpre)
        kept.flatten torn).mpr (by simpa using hc)
      have a2 : Receives ((de t ty).runSlice t std) [] [f'] (vs ++ []) left :=
        .piece (by simpa using hd) .stop
      obtain ⟨-, hleft⟩ := a1.unique a2
      rw [← hleft]
      have hcut : f'.take (f'.length - torn.length)
          = (kept.flatten.map fun v => (Ser.toVec v).1).flatten := by
        rw [k2, List.length_append, Nat.add_sub_cancel, List.take_left]
      obtain ⟨ks, torn', c1, c2⟩ := CompleteIn.exists _ new written hw
      have hfile : f'.take (f'.length - torn.length) ++ written
          = ((kept ++ [ks]).flatten.map fun v => (Ser.toVec v).1).flatten ++ torn' := by
        rw [hcut, c1.2.1, List.flatten_append, List.map_append, List.flatten_append]
        simp
      have hks : ∀ v ∈ (kept ++ [ks]).flatten, Has t ty v := by
        intro v hx
        rw [List.flatten_append] at hx
        rcases List.mem_append.mp hx with hx | hx
        · exact k3 v hx
        · exact hnew v (c1.1.subset (by simpa using hx))
      obtain ⟨rest, hrest⟩ := c1.1
      cases rest with
      | nil =>
        obtain rfl := c2 (by simpa using hrest)
        exact ⟨_, [], w0, pointwise_append k1 ⟨_, c1⟩, hfile, hks, hw0, List.nil_prefix, hn0.symm⟩
      | cons u rest =>
        obtain ⟨g1, g2⟩ := c1.2.2 u ⟨rest, by simpa using hrest⟩
        exact ⟨_, torn', u, pointwise_append k1 ⟨_, c1⟩, hfile, hks, hnew u (by simp [← hrest]),
          g1, g2⟩

/-- Any number of lives of a process that writes a log, each of which ended at any moment: it cuts
off what its predecessors left torn and appends values. Reading the log gives, life by life, the
values of which all bytes reached the file, and nothing else. -/
theorem C130_history (t : Target) (hm : 4096 ≤ t.memLimit) (std : OnShort) (ty : Ty)
    (hs : Supported ty) (h0 : 0 < minSize ty) (hi : ∃ w, Has t ty w)
    (lives : List (List Val × List UInt8)) (hv : ∀ l ∈ lives, ∀ v ∈ l.1, Has t ty v)
    (file : List UInt8)
    (hf : Lives ((de t ty).runSlice t std) (fun v => (Ser.toVec v).1) [] lives file)
    {cs : List ReadRes} {vs : List Val} {e : DeErr} {s' : List UInt8}
    (h : ReadsOut fileStep t (de t ty) file cs vs e s') :
    e = .read ∧ ∃ kept : List (List Val), vs = kept.flatten ∧
      Pointwise (fun l k => ∃ torn, CompleteIn (fun v => (Ser.toVec v).1) l.1 l.2 k torn)
        lives kept := by
  obtain ⟨kept, torn, w, k1, k2, k3, k4, k5, k6⟩ := lives_complete t hm std ty hs h0 hi hv hf
  have hok : ∀ v ∈ kept.flatten ++ [w], Has t ty v := fun v hx =>
    (List.mem_append.mp hx).elim (k3 v) fun hx => by rw [List.mem_singleton.mp hx]; exact k4
  have hpre : file <+: ((kept.flatten ++ [w]).map fun v => (Ser.toVec v).1).flatten := by
    rw [k2, List.map_append, List.flatten_append, List.prefix_append_right_inj]
    simpa using k5
  obtain ⟨i1, -, left, i2⟩ := C130_file t hm ty hs h0 hi _ hok file hpre h
  have hc : CompleteIn (fun v => (Ser.toVec v).1) (kept.flatten ++ [w]) file kept.flatten torn :=
    ⟨List.prefix_append _ _, k2, fun v hx => by
      rw [List.prefix_append_right_inj] at hx
      have : v = w := by simpa using hx
      exact this ▸ ⟨k5, k6⟩⟩
  have huniq := C108_typed t hm std ty hs h0 (kept.flatten ++ [w]) (by simp) hok [file]
    (by simpa using hpre)
  have a1 := (huniq vs left).mpr (by simpa using i2)
  have a2 := (huniq kept.flatten torn).mpr (by simpa using hc)
  exact ⟨i1, kept, (a1.unique a2).1, k1⟩

/-- Three lives: in the first `"cde"` is torn after two bytes, the second changes nothing, the third
cuts the file and appends `"x"`. Reading gives `"ab"` and `"x"`. -/
example : let t : Target := ⟨.w32, 4096⟩
    Lives ((de t .string).runSlice t .stay) (fun v => (Ser.toVec v).1) []
      [([.str "ab", .str "cde"], [2, 97, 98, 3, 99]), ([.str "never"], []),
        ([.str "x"], [1, 120])] [2, 97, 98, 1, 120] ∧
    ∀ cs vs e s', ReadsOut fileStep t (de t .string) [2, 97, 98, 1, 120] cs vs e s' →
      vs = [.str "ab", .str "x"] := by
  intro t
  have e0 : (Ser.toVec (.str "ab")).1 = [2, 97, 98] := by decide +kernel
  have e1 : (Ser.toVec (.str "cde")).1 = [3, 99, 100, 101] := by decide +kernel
  have e2 : (Ser.toVec (.str "x")).1 = [1, 120] := by decide +kernel
  constructor
  · refine .one (more := [_, _]) (f' := [2, 97, 98, 3, 99]) (.one (more := [_]) (.one (more := [])
      (f' := []) .none ?_) .idle) ?_
    · exact .append (file := []) (left := []) (vs := []) (.wait (left := []) rfl)
        (by simp only [List.map_cons, List.map_nil, e0, e1]; decide +kernel)
    · exact .append (file := [2, 97, 98, 3, 99]) (left := [3, 99]) (vs := [.str "ab"])
        (.value (left := [3, 99]) rfl (.wait (left := [99]) rfl))
        (by simp only [List.map_cons, List.map_nil, e2]; decide +kernel)
  · intro cs vs e s' h
    refine (C130_all t (by decide) .string trivial (by decide) ⟨.str "", _, rfl, by decide +kernel⟩
      [.str "ab", .str "x"] ?_ (by simpa [e0, e2] using h)).1
    intro v hv
    simp only [List.mem_cons, List.not_mem_nil, or_false] at hv
    rcases hv with rfl | rfl <;> exact ⟨_, rfl, by decide +kernel⟩

/-- In particular values all of whose bytes were written in some life, are there ever after. -/
theorem C130_durable (t : Target) (hm : 4096 ≤ t.memLimit) (std : OnShort) (ty : Ty)
    (hs : Supported ty) (h0 : 0 < minSize ty) (before after : List (List Val × List UInt8))
    (new : List Val) (hi : ∃ w, Has t ty w)
    (hv : ∀ l ∈ before ++ (new, (new.map fun v => (Ser.toVec v).1).flatten) :: after,
      ∀ v ∈ l.1, Has t ty v) (file : List UInt8)
    (hf : Lives ((de t ty).runSlice t std) (fun v => (Ser.toVec v).1) []
      (before ++ (new, (new.map fun v => (Ser.toVec v).1).flatten) :: after) file)
    {cs : List ReadRes} {vs : List Val} {e : DeErr} {s' : List UInt8}
    (h : ReadsOut fileStep t (de t ty) file cs vs e s') : ∃ a b, vs = a ++ new ++ b := by
  obtain ⟨-, kept, rfl, hk⟩ := C130_history t hm std ty hs h0 hi _ hv file hf h
  clear hf h hv
  induction before generalizing kept with
  | nil =>
    cases kept with
    | nil => exact hk.elim
    | cons k kept =>
      obtain ⟨⟨torn, hk⟩, -⟩ := hk
      have hk : k = new := (hk.all rfl).1
      exact ⟨[], kept.flatten, by rw [hk]; simp⟩
  | cons l before ih =>
    cases kept with
    | nil => exact hk.elim
    | cons k kept =>
      obtain ⟨a, b, hab⟩ := ih kept hk.2
      exact ⟨k ++ a, b, by rw [List.flatten_cons, hab]; simp⟩

/-- If values of the type take no bytes the loop does not end, on any reader. -/
theorem C130_endless (hl : step.Lawful) (t : Target) (hm : 4096 ≤ t.memLimit) (ty : Ty)
    (hs : Supported ty) (v : Val) (hv : Has t ty v) (h : Ser.toVec v = ([], .ok ())) (s : σ) :
    ¬ ∃ cs vs e s', ReadsOut step t (de t ty) s cs vs e s' := by
  rintro ⟨cs, vs, e, s', hr⟩
  induction hr with
  | @stop s s' cs e hx =>
    rcases C117_written hl t hm ty hs v hv (handed cs) hx (by rw [h]; exact List.prefix_refl _) with
      ⟨i, -⟩ | ⟨-, i, j, -⟩
    · cases i
    · rw [h] at i j
      exact j (List.prefix_nil.mp i)
  | next _ _ ih => exact ih

example (s : List UInt8) : ¬ ∃ cs vs e s', ReadsOut fileStep ⟨.w64, 4096⟩
    (de ⟨.w64, 4096⟩ (.tuple [.unit, .unit])) s cs vs e s' :=
  C130_endless fileStep_lawful _ (by decide) _ (by simp [Supported, AllSupported])
    (.tuple [.unit, .unit]) (by simp [Has, HasAll]) rfl s

/-! ## Dynamic values and derived types -/

/-- The same for dynamic values, on any reader: the loop of `Body::deserialize(header, ..)`. -/
theorem C130_body (hl : step.Lawful) (t : Target) (hm : 4096 ≤ t.memLimit) (mode : BuildMode)
    (size : Nat) (h : Header) (sent : List Body)
    (hv : ∀ b ∈ sent, Body.validate h b = true ∧ Exists t b ∧ CleanDecimals b ∧ DatesFit mode b ∧
      VectorsFit t size b)
    (he : ∃ b ∈ sent, (Body.toVec mode b).1 ≠ []) {s s' : σ} {cs : List ReadRes} {bs : List Body}
    {e : DeErr} (hr : ReadsOut step t (Body.de t mode size h) s cs bs e s')
    (hc : handed cs <+: (sent.map fun b => (Body.toVec mode b).1).flatten) :
    e = .read ∧ (∃ c, cs.getLast? = some c ∧ c.ends ≠ none) ∧
      ∃ left, CompleteIn (fun b => (Body.toVec mode b).1) sent (handed cs) bs left := by
  have key : ∀ b ∈ sent, ∀ more,
      (Body.de t mode size h).complete t ((Body.toVec mode b).1 ++ more) = some (.ok b, more) := by
    intro b hb more
    obtain ⟨h1, h2, h3, h4, h5⟩ := hv b hb
    obtain ⟨enc, g1, g2⟩ := C35_roundtrip t hm mode size h b h1 h2 h3 h4 h5
    have hx := Prog.complete_of_rest t (g2 [0]) (by simp)
    obtain ⟨used, e1, e2, -⟩ := Prog.complete_split t hx
    rw [← List.append_cancel_right e1] at e2
    rw [g1]
    exact e2 more
  obtain ⟨b, hb, hne⟩ := he
  obtain ⟨h1, h2, us, left, h3, h4⟩ := hr.written hl (Body.tame_de t mode size h)
    (fun b => (Body.toVec mode b).1) id ⟨b, b, hne, key b hb⟩ sent key hc
  rw [List.map_id] at h3
  exact ⟨h1, h2, left, h3 ▸ h4⟩

/-- The same for derived types; what is returned for `v` is what comes back of it
(property C71). -/
theorem C130_derived (hl : step.Lawful) (t : Target) (hm : 4096 ≤ t.memLimit) (mode : BuildMode)
    (env : Derive.Env) (ho : FairOrder env) (T : RTy) (sent : List (Derive.Carrier T))
    (hv : ∀ v ∈ sent, ReadsBack t mode env ⟨T, v⟩)
    (he : ∃ v ∈ sent, (Derive.ser mode T v).exec.1 ≠ []) {s s' : σ} {cs : List ReadRes}
    {ws : List (Derive.Carrier T)} {e : DeErr}
    (hr : ReadsOut step t (Derive.deTy t mode env T) s cs ws e s')
    (hc : handed cs <+: (sent.map fun v => (Derive.ser mode T v).exec.1).flatten) :
    e = .read ∧ (∃ c, cs.getLast? = some c ∧ c.ends ≠ none) ∧
      ∃ vs left, Pointwise (Returned env T) vs ws ∧
        CompleteIn (fun v => (Derive.ser mode T v).exec.1) sent (handed cs) vs left := by
  have hx : ∀ v, ∃ w, v ∈ sent → Returned env T v w ∧ ∀ more,
      (Derive.deTy t mode env T).complete t ((Derive.ser mode T v).exec.1 ++ more) =
        some (.ok w, more) := by
    intro v
    by_cases h : v ∈ sent
    · obtain ⟨h1, h2, h3, h4, h5, h6⟩ := hv v h
      obtain ⟨w, bs, hs, hw, hr⟩ := C71_roundtrip t hm mode env ho T h1 h2 h3 v h4 h5 h6
      refine ⟨w, fun _ => ⟨hw, fun more => ?_⟩⟩
      have hx := Prog.complete_of_rest t (hr .eof [0]) (by simp)
      obtain ⟨used, e1, e2, -⟩ := Prog.complete_split t hx
      rw [← List.append_cancel_right e1] at e2
      rw [hs]
      exact e2 more
    · exact ⟨v, fun h' => absurd h' h⟩
  obtain ⟨v, hvs, hne⟩ := he
  obtain ⟨h1, h2, us, left, h3, h4⟩ := hr.written hl (Derive.tame_deTy t mode env T)
    (fun v => (Derive.ser mode T v).exec.1) (fun v => (hx v).choose)
    ⟨v, _, hne, ((hx v).choose_spec hvs).2⟩ sent (fun v h => ((hx v).choose_spec h).2) hc
  refine ⟨h1, h2, us, left, ?_, h4⟩
  have hsub := h4.1.subset
  rw [h3]
  clear h3 h4
  induction us with
  | nil => exact trivial
  | cons u us ih =>
    exact ⟨((hx u).choose_spec (hsub List.mem_cons_self)).1, ih fun x hx => hsub (List.mem_cons_of_mem _ hx)⟩

example (mode : BuildMode) : (∀ v ∈ [recordVal], ReadsBack ⟨.w32, 4096⟩ mode sampleEnv ⟨recordTy, v⟩) ∧
    ∃ v ∈ [recordVal], (Derive.ser mode recordTy v).exec.1 ≠ [] :=
  ⟨fun v hv => by
    have : v = recordVal := by simpa using hv
    subst this
    exact record_reads _ (by decide) mode,
   recordVal, List.mem_cons_self, by cases mode <;> decide +kernel⟩

end Dlhn.Props
