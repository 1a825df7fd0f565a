import Verif.Spec.TakeFrames
import Verif.Props.Adapters
import Verif.Props.Frames
/-!
# C149: buffers decoded in place, one after the other

`ReadsFrames` (Spec/TakeFrames.lean) is the receiver: it decodes the length, runs a decoder
within `take` and skips what is left. `framed` (Spec/Frames.lean) is a buffer as it is
serialized.
-/
namespace Dlhn.Props

open Spec De

/-- The length of a buffer and the buffer. -/
theorem framed_split (f : List UInt8) (hf : f.length < 2 ^ 64) :
    framed f = (Ser.toVec (.u64 (UInt64.ofNat f.length))).1 ++ f := by
  rw [framed_eq f hf, Ser.toVec, Ser.exec_ser _ (by simp [Serializable]) (by simp [Fits])]
  simp [wire, UInt64.toNat_ofNat', Nat.mod_eq_of_lt hf]

/-- The reader after the length of a buffer. -/
theorem after_length (t : Target) (hm : 4096 ≤ t.memLimit) (f rest : List UInt8)
    (hf : f.length < 2 ^ 64) {q q₁ : Rdr} {cs : List ReadRes} {o : Outcome DeErr Val}
    (hq : q.bytes = framed f ++ rest) (h : Runs Rdr.step t (de t .u64) q cs o q₁) :
    o = .ok (.u64 (UInt64.ofNat f.length)) ∧ q₁.bytes = f ++ rest ∧ q₁.ending = q.ending := by
  rw [framed_split f hf, List.append_assoc] at hq
  exact C118_written t hm .u64 (by simp [Supported]) _ (by simp [Has]) _ hq h

/-- One frame: what the decoder sees, and where the reader is left. -/
theorem one_frame (t : Target) (hm : 4096 ≤ t.memLimit) {α : Type} (p : Prog DeErr α)
    (f rest : List UInt8) (hf : f.length < 2 ^ 64) {q q₁ r q₂ : Rdr} {cs cs' ds : List ReadRes}
    {n : UInt64} {left : Nat} {o : Outcome DeErr α} {x : Except IoErr (List UInt8)}
    (hq : q.bytes = framed f ++ rest)
    (hlen : Runs Rdr.step t (de t .u64) q cs (.ok (.u64 n)) q₁)
    (hdec : Runs Rdr.step t p (.take n.toNat q₁) cs' o r)
    (hskip : ReadsToEnd Rdr.step (n.toNat + 1) [] r ds x (.take left q₂)) :
    (Rdr.take n.toNat q₁).bytes = f ∧ handed cs' ++ handed ds = f ∧ q₂.bytes = rest := by
  obtain ⟨h1, h2, -⟩ := after_length t hm f rest hf hq hlen
  simp only [Outcome.ok.injEq, Val.u64.injEq] at h1
  have hn : n.toNat = f.length := by
    rw [h1, UInt64.toNat_ofNat', Nat.mod_eq_of_lt hf]
  obtain ⟨⟨a, -⟩, q'', b, c⟩ := C118_frame t p n.toNat (n.toNat + 1)
    (by rw [h2, hn]; simp) hdec (by omega) hskip
  cases b
  rw [h2, hn] at a c
  have : (Rdr.take n.toNat q₁).bytes = q₁.bytes.take n.toNat := rfl
  rw [this, h2, hn]
  exact ⟨by simp, by simpa using a, by simpa using c⟩

/-- Whatever is in the buffers, whatever decoder is run on them and whatever comes out, on every
target: the reader is left behind the last of them. -/
theorem C149_in_step (t : Target) (hm : 4096 ≤ t.memLimit) {α : Type} (p : Prog DeErr α)
    (fs : List (List UInt8)) (hf : ∀ f ∈ fs, f.length < 2 ^ 64) (rest : List UInt8) {q q' : Rdr}
    {os : List (Outcome DeErr α)} (hq : q.bytes = (fs.map framed).flatten ++ rest)
    (h : ReadsFrames t p q os q') (hos : os.length = fs.length) : q'.bytes = rest := by
  induction h generalizing fs with
  | stop q =>
    obtain rfl : fs = [] := List.length_eq_zero_iff.mp hos.symm
    simpa using hq
  | frame hlen hdec hskip _ ih =>
    match fs, hos with
    | f :: fs, hos =>
      refine ih fs (fun g hg => hf g (by simp [hg])) ?_ (by simpa using hos)
      exact (one_frame t hm p f _ (hf f (by simp)) (by simpa using hq) hlen hdec hskip).2.2

/-- Frames with an account of what comes of each. -/
theorem frames_pointwise (t : Target) (hm : 4096 ≤ t.memLimit) {α : Type} (p : Prog DeErr α)
    {P : List UInt8 → Outcome DeErr α → Prop}
    (fs : List (List UInt8)) (hf : ∀ f ∈ fs, f.length < 2 ^ 64) (rest : List UInt8)
    (hP : ∀ f ∈ fs, ∀ (r r' : Rdr) cs o, r.bytes = f → Runs Rdr.step t p r cs o r' → P f o)
    {q q' : Rdr} {os : List (Outcome DeErr α)} (hq : q.bytes = (fs.map framed).flatten ++ rest)
    (h : ReadsFrames t p q os q') (hos : os.length = fs.length) : Pointwise P fs os := by
  induction h generalizing fs with
  | stop q =>
    obtain rfl : fs = [] := List.length_eq_zero_iff.mp hos.symm
    exact trivial
  | frame hlen hdec hskip _ ih =>
    match fs, hos with
    | f :: fs, hos =>
      obtain ⟨h1, -, h3⟩ := one_frame t hm p f ((fs.map framed).flatten ++ rest)
        (hf f (by simp)) (by simpa using hq) hlen hdec hskip
      exact ⟨hP f (by simp) _ _ _ _ h1 hdec,
        ih fs (fun g hg => hf g (by simp [hg])) (fun g hg => hP g (by simp [hg])) h3
          (by simpa using hos)⟩

theorem outcomes_of_pointwise {α β : Type} {g : α → β} : {xs : List α} → {ys : List β} →
    Pointwise (fun x y => y = g x) xs ys → ys = xs.map g
  | [], [], _ => rfl
  | _ :: _, _ :: _, ⟨h1, h2⟩ => by rw [h1, outcomes_of_pointwise h2]; rfl
  | [], _ :: _, h => h.elim
  | _ :: _, [], h => h.elim

/-- Frames with a decoder that needs all its bytes. -/
theorem frames_of_strict (t : Target) (hm : 4096 ≤ t.memLimit) {α : Type} {p : Prog DeErr α}
    (hp : Prog.Strict orRead p) (fs : List (List UInt8)) (hf : ∀ f ∈ fs, f.length < 2 ^ 64)
    (rest : List UInt8) {q q' : Rdr} {os : List (Outcome DeErr α)}
    (hq : q.bytes = (fs.map framed).flatten ++ rest) (h : ReadsFrames t p q os q')
    (hos : os.length = fs.length) :
    os = fs.map (fun f => (Prog.run t p f).map Prod.fst) ∧ q'.bytes = rest := by
  refine ⟨outcomes_of_pointwise (frames_pointwise t hm p fs hf rest ?_ hq h hos),
    C149_in_step t hm p fs hf rest hq h hos⟩
  intro f _ r r' cs o hr hrun
  show o = (Prog.run t p f).map Prod.fst
  rw [← hr, (stack_of_strict hp hrun).1]
  cases o <;> rfl

/-- Whatever is in the buffers, every outcome is the one of decoding that buffer alone: a buffer
that is damaged, too short or too long has no effect on the others. -/
theorem C149_contents (t : Target) (hm : 4096 ≤ t.memLimit) (ty : Ty)
    (ht : t.ptr = .w64 ∨ NoText ty) (fs : List (List UInt8)) (hf : ∀ f ∈ fs, f.length < 2 ^ 64)
    (rest : List UInt8) {q q' : Rdr} {os : List (Outcome DeErr Val)}
    (hq : q.bytes = (fs.map framed).flatten ++ rest) (h : ReadsFrames t (de t ty) q os q')
    (hos : os.length = fs.length) :
    os = fs.map (fun f => (Prog.run t (de t ty) f).map Prod.fst) ∧ q'.bytes = rest :=
  frames_of_strict t hm (strict_on ht) fs hf rest hq h hos

/-- For every `Deserialize` implementation. -/
theorem C149_contents_impl (t : Target) (hm : 4096 ≤ t.memLimit) {α : Type} (i : Impl α)
    (ht : t.ptr = .w64 ∨ NoTextImpl i) (fs : List (List UInt8))
    (hf : ∀ f ∈ fs, f.length < 2 ^ 64) (rest : List UInt8) {q q' : Rdr}
    {os : List (Outcome DeErr α)} (hq : q.bytes = (fs.map framed).flatten ++ rest)
    (h : ReadsFrames t (i.run t) q os q') (hos : os.length = fs.length) :
    os = fs.map (fun f => (Prog.run t (i.run t) f).map Prod.fst) ∧ q'.bytes = rest :=
  frames_of_strict t hm (strict_on_impl ht) fs hf rest hq h hos

/-- For dynamic values. -/
theorem C149_contents_body (t : Target) (hm : 4096 ≤ t.memLimit) (mode : BuildMode) (size : Nat)
    (hd : Header) (ht : t.ptr = .w64 ∨ NoTextHeader hd) (fs : List (List UInt8))
    (hf : ∀ f ∈ fs, f.length < 2 ^ 64) (rest : List UInt8) {q q' : Rdr}
    {os : List (Outcome DeErr Body)} (hq : q.bytes = (fs.map framed).flatten ++ rest)
    (h : ReadsFrames t (Body.de t mode size hd) q os q') (hos : os.length = fs.length) :
    os = fs.map (fun f => (Prog.run t (Body.de t mode size hd) f).map Prod.fst) ∧
      q'.bytes = rest :=
  frames_of_strict t hm (Body.strict_on mode size ht) fs hf rest hq h hos

/-- For derived types. -/
theorem C149_contents_derived (t : Target) (hm : 4096 ≤ t.memLimit) (mode : BuildMode)
    (env : Derive.Env) (T : RTy) (ht : t.ptr = .w64 ∨ NoTextDerived T) (fs : List (List UInt8))
    (hf : ∀ f ∈ fs, f.length < 2 ^ 64) (rest : List UInt8) {q q' : Rdr}
    {os : List (Outcome DeErr (Derive.Carrier T))}
    (hq : q.bytes = (fs.map framed).flatten ++ rest)
    (h : ReadsFrames t (Derive.deTy t mode env T) q os q') (hos : os.length = fs.length) :
    os = fs.map (fun f => (Prog.run t (Derive.deTy t mode env T) f).map Prod.fst) ∧
      q'.bytes = rest :=
  frames_of_strict t hm (Derive.strict_on mode env ht) fs hf rest hq h hos

/-- On every target: if every buffer begins with a value of the type, these values come out,
whatever the sender put behind them. -/
theorem C149_values (t : Target) (hm : 4096 ≤ t.memLimit) (ty : Ty) (hs : Supported ty)
    (sent : List (Val × List UInt8))
    (hv : ∀ x ∈ sent, Has t ty x.1 ∧ ((Ser.toVec x.1).1 ++ x.2).length < 2 ^ 64)
    (rest : List UInt8) {q q' : Rdr} {os : List (Outcome DeErr Val)}
    (hq : q.bytes = (sent.map fun x => framed ((Ser.toVec x.1).1 ++ x.2)).flatten ++ rest)
    (h : ReadsFrames t (de t ty) q os q') (hos : os.length = sent.length) :
    os = sent.map (fun x => .ok x.1) ∧ q'.bytes = rest := by
  have hf : ∀ f ∈ sent.map (fun x => (Ser.toVec x.1).1 ++ x.2), f.length < 2 ^ 64 := by
    intro f hf
    obtain ⟨x, hx, rfl⟩ := List.mem_map.mp hf
    exact (hv x hx).2
  have hq' : q.bytes = ((sent.map fun x => (Ser.toVec x.1).1 ++ x.2).map framed).flatten ++ rest := by
    rw [List.map_map]; exact hq
  refine ⟨?_, C149_in_step t hm _ _ hf rest hq' h (by simpa using hos)⟩
  have hp := frames_pointwise t hm (de t ty)
    (P := fun f o => ∀ x ∈ sent, f = (Ser.toVec x.1).1 ++ x.2 → o = .ok x.1) _ hf rest
    (fun f _ r r' cs o hr hrun x hx hfx =>
      (C118_written t hm ty hs x.1 (hv x hx).1 x.2 (by rw [hr, hfx]) hrun).1) hq' h
    (by simpa using hos)
  have key : ∀ (l : List (Val × List UInt8)) (os : List (Outcome DeErr Val)),
      (∀ x ∈ l, x ∈ sent) →
      Pointwise (fun f o => ∀ x ∈ sent, f = (Ser.toVec x.1).1 ++ x.2 → o = .ok x.1)
        (l.map fun x => (Ser.toVec x.1).1 ++ x.2) os → os = l.map (fun x => .ok x.1) := by
    intro l
    induction l with
    | nil =>
      intro os _ h
      cases os with
      | nil => rfl
      | cons => exact h.elim
    | cons x l ih =>
      intro os hl h
      cases os with
      | nil => exact h.elim
      | cons o os =>
        rw [h.1 x (hl x (by simp)) rfl, ih os (fun y hy => hl y (by simp [hy])) h.2]
        rfl
  exact key sent os (fun _ h => h) hp

/-- A value that was written, through any combination of adapters. -/
theorem stack_of_written {t : Target} {α : Type} {p : Prog DeErr α} (hp : Prog.Tame orRead p)
    {enc rest : List UInt8} {v : α} (hx : ∀ more, Prog.run t p (enc ++ more) = .ok (v, more))
    {r r' : Rdr} {cs : List ReadRes} {o : Outcome DeErr α} (hb : r.bytes = enc ++ rest)
    (h : Runs Rdr.step t p r cs o r') : o = .ok v := by
  obtain ⟨used, e1, e2, -⟩ := Prog.complete_split t (Prog.complete_of_rest t (hx [0]) (by simp))
  rw [← List.append_cancel_right e1] at e2
  have hc := h.consumes
  have hpre : before cs <+: enc ++ rest := by rw [← hb]; exact hc.2.2
  rcases h.written Rdr.lawful hp (e2 rest) hpre with ⟨i1, -, -⟩ | ⟨-, i2, i3, x, i4⟩
  · exact i1
  · rw [Rdr.bytes, hc.2.1 x i4] at hb
    simp only at hb
    rw [hb] at i2 i3
    have := i2.length_le
    simp only [List.length_append] at this
    have hr : rest = [] := List.length_eq_zero_iff.mp (by omega)
    exact (i3 (by rw [hr, List.append_nil])).elim

/-- Frames with an account of what comes of each thing that was sent. -/
theorem frames_sent (t : Target) (hm : 4096 ≤ t.memLimit) {α β : Type} (p : Prog DeErr α)
    {Q : β → Outcome DeErr α → Prop} (code : β → List UInt8) (sent : List β)
    (hf : ∀ x ∈ sent, (code x).length < 2 ^ 64) (rest : List UInt8)
    (hQ : ∀ x ∈ sent, ∀ (r r' : Rdr) cs o, r.bytes = code x → Runs Rdr.step t p r cs o r' → Q x o)
    {q q' : Rdr} {os : List (Outcome DeErr α)}
    (hq : q.bytes = (sent.map fun x => framed (code x)).flatten ++ rest)
    (h : ReadsFrames t p q os q') (hos : os.length = sent.length) :
    Pointwise Q sent os ∧ q'.bytes = rest := by
  induction h generalizing sent with
  | stop q =>
    obtain rfl : sent = [] := List.length_eq_zero_iff.mp hos.symm
    exact ⟨trivial, by simpa using hq⟩
  | frame hlen hdec hskip _ ih =>
    match sent, hos with
    | x :: sent, hos =>
      obtain ⟨h1, -, h3⟩ := one_frame t hm p (code x)
        ((sent.map fun x => framed (code x)).flatten ++ rest) (hf x (by simp))
        (by simpa using hq) hlen hdec hskip
      obtain ⟨i1, i2⟩ := ih sent (fun y hy => hf y (by simp [hy])) (fun y hy => hQ y (by simp [hy]))
        h3 (by simpa using hos)
      exact ⟨⟨hQ x (by simp) _ _ _ _ h1 hdec, i1⟩, i2⟩

/-- The same for values of derived types, on every target. -/
theorem C149_values_derived (t : Target) (hm : 4096 ≤ t.memLimit) (mode : BuildMode)
    (env : Derive.Env) (ho : FairOrder env) (T : RTy) (hr : Readable T) (hsy : Symmetric T)
    (hd : Defaulted env T) (sent : List (Derive.Carrier T × List UInt8))
    (hv : ∀ x ∈ sent, Real t T x.1 ∧ DatesRebase mode T x.1 ∧ InstantsInRange T x.1 ∧
      ((Derive.ser mode T x.1).exec.1 ++ x.2).length < 2 ^ 64) (rest : List UInt8) {q q' : Rdr}
    {os : List (Outcome DeErr (Derive.Carrier T))}
    (hq : q.bytes = (sent.map fun x => framed ((Derive.ser mode T x.1).exec.1 ++ x.2)).flatten ++ rest)
    (h : ReadsFrames t (Derive.deTy t mode env T) q os q') (hos : os.length = sent.length) :
    Pointwise (fun x o => ∃ w, o = .ok w ∧ Returned env T x.1 w) sent os ∧ q'.bytes = rest := by
  obtain ⟨code, hcode⟩ : ∃ code : Derive.Carrier T × List UInt8 → List UInt8,
      ∀ x, code x = (Derive.ser mode T x.1).exec.1 ++ x.2 := ⟨_, fun _ => rfl⟩
  simp only [← hcode] at hv hq
  refine frames_sent t hm (Derive.deTy t mode env T) code sent (fun x hx => (hv x hx).2.2.2) rest
    ?_ hq h hos
  intro x hx r r' cs o hb hrun
  obtain ⟨h1, h2, h3, -⟩ := hv x hx
  obtain ⟨w, bs, e1, e2, e3⟩ := C71_roundtrip t hm mode env ho T hr hsy hd x.1 h1 h2 h3
  rw [hcode, e1] at hb
  exact ⟨w, stack_of_written (Derive.tame_deTy t mode env T) (fun more => e3 .eof more) hb hrun, e2⟩

/-- Messages, each with its own header, on every target: a header and a dynamic value come out
of every buffer. -/
theorem C149_messages (t : Target) (hm : 4096 ≤ t.memLimit) (mode : BuildMode)
    (size hsize d : Nat) (hmem : 65535 * hsize ≤ t.memLimit) (hptr : 65535 * hsize ≤ t.isizeMax)
    (sent : List ((Header × Body) × List UInt8))
    (hv : ∀ x ∈ sent, Countable x.1.1 ∧ depth x.1.1 ≤ d ∧ Body.validate x.1.1 x.1.2 = true ∧
      Spec.Exists t x.1.2 ∧ CleanDecimals x.1.2 ∧ DatesFit mode x.1.2 ∧ VectorsFit t size x.1.2 ∧
      (x.1.1.toVec.1 ++ (Body.toVec mode x.1.2).1 ++ x.2).length < 2 ^ 64)
    (rest : List UInt8) {q q' : Rdr} {os : List (Outcome DeErr (Header × Body))}
    (hq : q.bytes = (sent.map fun x =>
      framed (x.1.1.toVec.1 ++ (Body.toVec mode x.1.2).1 ++ x.2)).flatten ++ rest)
    (h : ReadsFrames t (message t mode size hsize d) q os q') (hos : os.length = sent.length) :
    os = sent.map (fun x => .ok x.1) ∧ q'.bytes = rest := by
  have hp : Prog.Tame orRead (message t mode size hsize d) :=
    ((Header.strict_deserialize hsize d).mapErr orRead).tame.bind fun h =>
      (Body.tame_de t mode size h).bind fun _ => trivial
  obtain ⟨code, hcode⟩ : ∃ code : (Header × Body) × List UInt8 → List UInt8,
      ∀ x, code x = x.1.1.toVec.1 ++ (Body.toVec mode x.1.2).1 ++ x.2 := ⟨_, fun _ => rfl⟩
  simp only [← hcode] at hv hq
  obtain ⟨h1, h2⟩ := frames_sent t hm (message t mode size hsize d) (Q := fun x o => o = .ok x.1)
    code sent (fun x hx => (hv x hx).2.2.2.2.2.2.2) rest (fun x hx r r' cs o hb hrun => by
      obtain ⟨a1, a2, a3, a4, a5, a6, a7, -⟩ := hv x hx
      obtain ⟨henc, g1, g2⟩ := C30_roundtrip t hsize d hmem hptr x.1.1 a1 a2
      obtain ⟨enc, f1, f2⟩ := C35_roundtrip t hm mode size x.1.1 x.1.2 a3 a4 a5 a6 a7
      rw [hcode, g1, f1] at hb
      refine stack_of_written hp (fun more => ?_) hb hrun
      have g3 : Prog.exec t .eof (Header.deserialize hsize d) (henc ++ (enc ++ more)) =
        .ok (x.1.1, enc ++ more) := g2 _
      have f3 : Prog.exec t .eof (Body.de t mode size x.1.1) (enc ++ more) = .ok (x.1.2, more) := f2 _
      simp [Prog.run, message, Prog.exec_bind, Prog.exec_mapErr, List.append_assoc, g3, f3,
        Outcome.mapErr, Prog.next, Prog.exec]) hq h hos
  exact ⟨outcomes_of_pointwise h1, h2⟩

/-- And the receiver gets that far: there is such a run for all the buffers. -/
theorem C149_ends (t : Target) (hm : 4096 ≤ t.memLimit) {α : Type} (p : Prog DeErr α)
    (fs : List (List UInt8)) (hf : ∀ f ∈ fs, f.length < 2 ^ 64) (rest : List UInt8) (q : Rdr)
    (hq : q.bytes = (fs.map framed).flatten ++ rest) :
    ∃ os q', ReadsFrames t p q os q' ∧ os.length = fs.length := by
  induction fs generalizing q with
  | nil => exact ⟨[], q, .stop q, rfl⟩
  | cons f fs ih =>
    have hq' : q.bytes = framed f ++ ((fs.map framed).flatten ++ rest) := by simpa using hq
    obtain ⟨cs, o, q₁, h1⟩ := C118_ends t (de t .u64) q
    obtain ⟨rfl, -, -⟩ := after_length t hm f _ (hf f (by simp)) hq' h1
    obtain ⟨cs', o, r, h2⟩ := C118_ends t p (.take (UInt64.ofNat f.length).toNat q₁)
    obtain ⟨ds, x, r', h3⟩ := ReadsToEnd.exists Rdr.live
      ((UInt64.ofNat f.length).toNat + 1) [] r
    obtain ⟨n', q', rfl, -, -⟩ := h2.limits _ q₁ rfl
    obtain ⟨left, q₂, rfl, -, -⟩ := h3.limits _ q' rfl
    obtain ⟨os, q₃, h4, h5⟩ := ih (fun g hg => hf g (by simp [hg])) q₂
      (one_frame t hm p f _ (hf f (by simp)) hq' h1 h2 h3).2.2
    exact ⟨_, _, .frame h1 h2 h3 h4, by simp [h5]⟩

/-- On every target, if the reader ends or fails inside a buffer with a value: the length or the
value is reported as `Err(Read)`, and nothing is made up. -/
theorem C149_cut (t : Target) (hm : 4096 ≤ t.memLimit) (ty : Ty) (hs : Supported ty) (v : Val)
    (hv : Has t ty v) (hl : (Ser.toVec v).1.length < 2 ^ 64) {q q₁ : Rdr} {cs : List ReadRes}
    {o : Outcome DeErr Val} (hb : q.bytes <+: framed (Ser.toVec v).1)
    (hne : q.bytes ≠ framed (Ser.toVec v).1) (h : Runs Rdr.step t (de t .u64) q cs o q₁) :
    o = .err .read ∨ ∃ n, o = .ok (.u64 n) ∧
      ∀ cs' o' r, Runs Rdr.step t (de t ty) (.take n.toNat q₁) cs' o' r → o' = .err .read := by
  rw [framed_split _ hl] at hb hne
  by_cases hlt : q.bytes.length < (Ser.toVec (.u64 (UInt64.ofNat (Ser.toVec v).1.length))).1.length
  · exact .inl (C118_cut t hm .u64 (by simp [Supported]) _ (by simp [Has])
      (List.prefix_of_prefix_length_le hb (List.prefix_append ..) (by omega))
      (fun e => by rw [e] at hlt; omega) h)
  · obtain ⟨more, hmore⟩ := List.prefix_of_prefix_length_le (List.prefix_append ..) hb
      (Nat.le_of_not_lt hlt)
    rw [← hmore] at hb hne
    obtain ⟨h1, h2, -⟩ := C118_written t hm .u64 (by simp [Supported]) _ (by simp [Has]) more
      hmore.symm h
    refine .inr ⟨_, h1, fun cs' o' r hr => ?_⟩
    have hp : more <+: (Ser.toVec v).1 := (List.prefix_append_right_inj _).mp hb
    have hx : (Rdr.take (UInt64.ofNat (Ser.toVec v).1.length).toNat q₁).bytes = more := by
      show q₁.bytes.take _ = more
      rw [h2, UInt64.toNat_ofNat', Nat.mod_eq_of_lt hl]
      exact List.take_of_length_le hp.length_le
    exact C118_cut t hm ty hs v hv (by rw [hx]; exact hp)
      (by rw [hx]; intro e; exact hne (by rw [e])) hr

/-! ## Examples -/

/-- `C149_cut`: a string of three bytes in a buffer of four, of which three are delivered. -/
example : (Rdr.base [.data [4, 3], .interrupted, .data [97, 98]]).bytes <+:
      framed (Ser.toVec (.str "abc")).1 ∧
    (Rdr.base [.data [4, 3], .interrupted, .data [97, 98]]).bytes ≠
      framed (Ser.toVec (.str "abc")).1 := by
  decide +kernel

/-- A buffer with a `u16` and two bytes the receiver does not know, one that is cut inside
its `u16`, one that is empty, one that is well-formed, and a byte that belongs to no frame;
the reader is interrupted and delivers them in pieces. -/
def framesSample : Rdr :=
  .chain false (.base [.data [4, 133], .interrupted, .data [1, 8, 9, 1]])
    (.buffered 3 [] (.base [.data [133, 0, 1, 7, 42]]))

example : framesSample.bytes =
    ([[133, 1, 8, 9], [133], [], [7]].map framed).flatten ++ [42] := by
  decide +kernel

/-- Its frames are read; the damaged ones give errors. -/
example : ∃ os q', ReadsFrames ⟨.w64, 4096⟩ (de ⟨.w64, 4096⟩ .u16) framesSample os q' ∧
    os = [.ok (.u16 69), .err .read, .err .read, .ok (.u16 7)] ∧ q'.bytes = [42] := by
  have hb : framesSample.bytes = ([[133, 1, 8, 9], [133], [], [7]].map framed).flatten ++ [42] := by
    decide +kernel
  have hf : ∀ f ∈ ([[133, 1, 8, 9], [133], [], [7]] : List (List UInt8)), f.length < 2 ^ 64 := by
    decide
  obtain ⟨os, q', h, hl⟩ := C149_ends ⟨.w64, 4096⟩ (by decide) (de ⟨.w64, 4096⟩ .u16) _ hf [42] _ hb
  obtain ⟨h1, h2⟩ := C149_contents ⟨.w64, 4096⟩ (by decide) .u16 (.inl rfl) _ hf [42] hb h hl
  exact ⟨os, q', h, by rw [h1]; rfl, h2⟩

/-- `C149_messages` and `C149_values_derived`: the samples of C35 and C71 with three bytes behind
them. -/
example (mode : BuildMode) : Countable sampleShape ∧ depth sampleShape ≤ 200 ∧
    (sampleShape.toVec.1 ++ (Body.toVec mode sampleBody).1 ++ [1, 2, 3]).length < 2 ^ 64 ∧
    ((Derive.ser mode recordTy recordVal).exec.1 ++ [1, 2, 3]).length < 2 ^ 64 := by
  refine ⟨by simp [sampleShape, Countable, AllCountable], by decide, ?_, ?_⟩ <;>
    cases mode <;> decide +kernel

/-- A message about an option and one about a number, with different headers: the decoder for
messages. -/
example : Prog.run ⟨.w64, 65535⟩ (message ⟨.w64, 65535⟩ .debug 1 1 9)
      ((Header.optional .uint8).toVec.1 ++ (Body.toVec .debug (.some (.uint8 7))).1) =
        .ok ((.optional .uint8, .some (.uint8 7)), []) ∧
    Prog.run ⟨.w64, 65535⟩ (message ⟨.w64, 65535⟩ .debug 1 1 9)
      (Header.uint16.toVec.1 ++ (Body.toVec .debug (.uint16 300)).1) =
        .ok ((.uint16, .uint16 300), []) := by
  exact ⟨rfl, rfl⟩

end Dlhn.Props
