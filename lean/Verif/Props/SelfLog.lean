import Verif.Spec.SelfLog
import Verif.Props.History
/-!
# C134: a log that describes itself

A file or connection begins with `T::serialize_header` and goes on with values of `T`. The reader
knows no types (`ReadsSelf`, Spec/SelfLog.lean): it reads a header, and then bodies until one
fails. `Mirrors T v b` says that the body `b` shows the value `v`.
-/
namespace Dlhn.Props

open Spec hiding variantFields
open De Derive

variable {σ : Type} {step : RStep σ}

theorem header_complete {t : Target} {hsize d : Nat} {hbs : List UInt8} {h : Header}
    (hrun : ∀ rest, Prog.run t (Header.deserialize hsize d) (hbs ++ rest) = .ok (h, rest))
    (rest : List UInt8) :
    (Header.deserialize hsize d).complete t (hbs ++ rest) = some (.ok h, rest) := by
  obtain ⟨used, e1, e2, -⟩ := Prog.complete_split t
    (Prog.complete_of_rest t (hrun [0]) (by simp))
  rw [← List.append_cancel_right e1] at e2
  exact e2 rest

/-- Reading a header that was written, or a beginning of it, from any reader. -/
theorem header_written (hl : step.Lawful) {t : Target} {hsize d : Nat} {hbs rest : List UInt8}
    {h : Header}
    (hrun : ∀ rest, Prog.run t (Header.deserialize hsize d) (hbs ++ rest) = .ok (h, rest))
    {s s' : σ} {cs : List ReadRes} {o : Outcome IoErr Header}
    (hr : Runs step t (Header.deserialize hsize d) s cs o s') (hc : handed cs <+: hbs ++ rest) :
    (o = .ok h ∧ handed cs = hbs) ∨
    ((∃ e, o = .err e) ∧ handed cs <+: hbs ∧ handed cs ≠ hbs ∧
      ∃ c, cs.getLast? = some c ∧ c.ends ≠ none) := by
  obtain ⟨more, hm⟩ := hc
  have hcp := header_complete hrun
  rcases hr.stopped hl (.inl (Header.strict_deserialize hsize d)) with h1 | ⟨x, h1, h2, h3⟩
  · have h4 := hr.complete hl h1 more
    rw [hm, hcp] at h4
    simp only [Option.some.injEq, Prod.mk.injEq] at h4
    rw [h4.2] at hm
    exact .inl ⟨h4.1.symm, List.append_cancel_right hm⟩
  · have hno : ¬ hbs <+: handed cs := by
      rintro ⟨r, hr⟩
      rw [← hr, hcp r] at h3
      cases h3
    obtain ⟨c, h4, h5⟩ := h1.last
    refine .inr ⟨⟨_, h2⟩, ?_, fun hx => hno (by rw [hx]; exact List.prefix_refl _), c, h4, by
      rw [h5]; simp⟩
    rcases List.prefix_or_prefix_of_prefix (⟨more, hm⟩ : handed cs <+: hbs ++ rest)
      (List.prefix_append hbs rest) with h | h
    · exact h
    · exact (hno h).elim

/-- The body that is read for a value, if there is one. -/
theorem exists_mirror (t : Target) (hm : 4096 ≤ t.memLimit) (mode : BuildMode) (size : Nat)
    (T : RTy) (h : Header) (hT : Announces T h) (hp : Plain T) (v : Carrier T) :
    ∃ b : Body, (Real t T v ∧ DatesRebase mode T v ∧ MemoryFits t size h T v) →
      Mirrors T v b ∧ Recognised t (Body.de t mode size h) (ser mode T v).exec.1 b := by
  by_cases hv : Real t T v ∧ DatesRebase mode T v ∧ MemoryFits t size h T v
  · obtain ⟨b, bs, e1, e2, -, e4, -⟩ := C38_agree t hm mode size T h hT hp v hv.1 hv.2.1 hv.2.2
    refine ⟨b, fun _ => ⟨e2, ?_⟩⟩
    rw [e1]
    exact Prog.recognised (Body.tame_de t mode size h) (e4 [0]) (by simp)
  · exact ⟨.unit, fun h' => absurd h' hv⟩

theorem recognised_complete {α : Type} {t : Target} {p : Prog DeErr α} {enc : List UInt8} {b : α}
    (hr : Recognised t p enc b) (more : List UInt8) :
    p.complete t (enc ++ more) = some (.ok b, more) := by
  have hx : Prog.run t p (enc ++ [0]) = .ok (b, [0]) := by
    rw [Prog.runSlice_run t .toEnd, (hr.codes .toEnd).whole [0]]; rfl
  obtain ⟨used, e1, e2, -⟩ := Prog.complete_split t (Prog.complete_of_rest t hx (by simp))
  rw [← List.append_cancel_right e1] at e2
  exact e2 more

/-- Any reader that delivers a header and values behind it, or a beginning of that, in whatever
way it likes. Either the header is not all there, and the reader reports it; or the header is read,
and then exactly the values of which all bytes were delivered, then `Err(Read)`. -/
theorem C134_reader (hl : step.Lawful) (t : Target) (hm : 4096 ≤ t.memLimit) (mode : BuildMode)
    (size hsize d : Nat) (hmem : 65535 * hsize ≤ t.memLimit) (hptr : 65535 * hsize ≤ t.isizeMax)
    (T : RTy) (h : Header) (hT : Announces T h) (hdep : depth h ≤ d) (hp : Plain T)
    (sent : List (Carrier T))
    (hv : ∀ v ∈ sent, Real t T v ∧ DatesRebase mode T v ∧ MemoryFits t size h T v)
    (he : ∃ v ∈ sent, (ser mode T v).exec.1 ≠ []) (p : WProg IoErr)
    (hq : serializeHeader T = .ok p) {s s' : σ} {cs : List ReadRes}
    {r : Except IoErr (Header × List Body × DeErr)}
    (hr : ReadsSelf step t mode size hsize d s cs r s')
    (hc : handed cs <+: p.exec.1 ++ (sent.map fun v => (ser mode T v).exec.1).flatten) :
    (∃ c, cs.getLast? = some c ∧ c.ends ≠ none) ∧
    (((∃ e, r = .error e) ∧ handed cs <+: p.exec.1 ∧ handed cs ≠ p.exec.1) ∨
    ∃ bodies vs data left, r = .ok (h, bodies, .read) ∧ handed cs = p.exec.1 ++ data ∧
      CompleteIn (fun v => (ser mode T v).exec.1) sent data vs left ∧
      Pointwise (Mirrors T) vs bodies) := by
  obtain ⟨hd, hcnt⟩ := (announces_iff T h).mp hT
  obtain ⟨p', hq', -, -, hrun⟩ := C34_header T h hd hcnt t hsize d hmem hptr hdep
  rw [hq] at hq'
  cases hq'
  cases hr with
  | noHeader h1 =>
    rcases header_written hl hrun h1 hc with ⟨i, -⟩ | ⟨⟨e', i1⟩, i2, i3, i4⟩
    · cases i
    · exact ⟨i4, .inl ⟨⟨_, rfl⟩, i2, i3⟩⟩
  | @header _ _ cs ds hd' bs e h1 more =>
    rw [handed_append] at hc ⊢
    rcases header_written hl hrun h1 ((List.prefix_append _ _).trans hc) with ⟨i1, i2⟩ | ⟨⟨e', i1⟩, -⟩
    · cases i1
      rw [i2, List.prefix_append_right_inj] at hc
      have hx := exists_mirror t hm mode size T h hT hp
      obtain ⟨w, hws, hne⟩ := he
      obtain ⟨k1, ⟨c, k2, k2'⟩, us, left, k3, k4⟩ := more.written hl (Body.tame_de t mode size h)
        (fun v => (ser mode T v).exec.1) (fun v => (hx v).choose)
        ⟨w, _, hne, fun more => recognised_complete ((hx w).choose_spec (hv w hws)).2 more⟩ sent
        (fun v h => recognised_complete ((hx v).choose_spec (hv v h)).2) hc
      refine ⟨⟨c, by rw [List.getLast?_append, k2]; rfl, k2'⟩,
        .inr ⟨bs, us, handed ds, left, by rw [k1], by rw [i2], k4, ?_⟩⟩
      have hsub := k4.1.subset
      rw [k3]
      clear k3 k4
      induction us with
      | nil => exact trivial
      | cons u us ih =>
        exact ⟨((hx u).choose_spec (hv u (hsub List.mem_cons_self))).1,
          ih fun x hx => hsub (List.mem_cons_of_mem _ hx)⟩
    · cases i1

/-- Written by anyone to any writer, which may fail; the process or the machine crashes at any
moment, after the calls `ws₁` of `write`, in the header or behind it; and whatever reader then
delivers what had been accepted, or the beginning of it. -/
theorem C134_crash {ω : Type} {wstep : WStep ω} (hl : step.Lawful) (t : Target)
    (hm : 4096 ≤ t.memLimit) (mode : BuildMode)
    (size hsize d : Nat) (hmem : 65535 * hsize ≤ t.memLimit) (hptr : 65535 * hsize ≤ t.isizeMax)
    (T : RTy) (h : Header) (hT : Announces T h) (hdep : depth h ≤ d) (hp : Plain T)
    (sent : List (Carrier T))
    (hv : ∀ v ∈ sent, Real t T v ∧ DatesRebase mode T v ∧ MemoryFits t size h T v)
    (he : ∃ v ∈ sent, (ser mode T v).exec.1 ≠ []) (p : WProg IoErr)
    (hq : serializeHeader T = .ok p) {a a' : ω} {ws ws₁ : List WCall}
    (hw : WritesSelf wstep p (serEach mode T sent) a ws a') (hcr : ws₁ <+: ws) {s s' : σ}
    {cs : List ReadRes} {r : Except IoErr (Header × List Body × DeErr)}
    (hr : ReadsSelf step t mode size hsize d s cs r s') (hc : handed cs <+: accepted ws₁) :
    ((∃ e, r = .error e) ∧ handed cs <+: p.exec.1 ∧ handed cs ≠ p.exec.1) ∨
    ∃ bodies vs data left, r = .ok (h, bodies, .read) ∧ handed cs = p.exec.1 ++ data ∧
      CompleteIn (fun v => (ser mode T v).exec.1) sent data vs left ∧
      Pointwise (Mirrors T) vs bodies := by
  have hmaps : ∀ l : List (Carrier T), (serEach mode T l).Maps (fun _ => SerErr.write) := by
    intro l
    induction l with
    | nil => exact trivial
    | cons v l ih =>
      exact WProg.Maps.andThen (Derive.wclosed_ser Derive.wclosed_maps mode (.inr trivial) T v) ih
  have hex : ∀ l : List (Carrier T),
      (∀ v ∈ l, Real t T v ∧ DatesRebase mode T v ∧ MemoryFits t size h T v) →
      (serEach mode T l).exec = ((l.map fun v => (ser mode T v).exec.1).flatten, .ok ()) := by
    intro l hl
    induction l with
    | nil => rfl
    | cons v l ih =>
      obtain ⟨g1, g2, g3⟩ := hl v List.mem_cons_self
      obtain ⟨b, bs, e1, -⟩ := C38_agree t hm mode size T h hT hp v g1 g2 g3
      rw [serEach, WProg.exec_andThen_ok e1, ih fun u hu => hl u (List.mem_cons_of_mem _ hu),
        List.map_cons, List.flatten_cons, e1]
  have hpre : ∀ {ε : Type} {f : IoErr → ε} {bs : List UInt8} {o : Outcome ε Unit}
      {ws ws₁ : List WCall}, Delivered f (bs, .ok ()) ws o → ws₁ <+: ws →
      accepted ws₁ <+: bs ∧ (o = .ok () → accepted ws = bs) := by
    intro ε f bs o ws ws₁ hdel hcr
    obtain ⟨ws₂, rfl⟩ := hcr
    refine ⟨?_, fun ho => ?_⟩
    · cases ws₂ with
      | nil =>
        rw [List.append_nil] at hdel
        rcases hdel.2 with ⟨i, -⟩ | ⟨_, _, _, _, -, -, -, -, i, -⟩
        · rw [i]; exact List.prefix_refl _
        · exact i
      | cons c ws₂ =>
        obtain ⟨b, r⟩ := c
        exact (List.prefix_append _ _).trans (hdel.1 ws₁ b r ws₂ rfl).2
    · rcases hdel.2 with ⟨i, -⟩ | ⟨_, _, _, _, -, -, -, j, -⟩
      · exact i
      · rw [ho] at j; cases j
  refine (C134_reader hl t hm mode size hsize d hmem hptr T h hT hdep hp sent hv he p hq hr
    (hc.trans ?_)).2
  obtain ⟨hd, hcnt⟩ := (announces_iff T h).mp hT
  obtain ⟨p', hq', -, hok, -⟩ := C34_header T h hd hcnt t hsize d hmem hptr hdep
  rw [hq] at hq'
  cases hq'
  have hph : p.exec = (p.exec.1, .ok ()) := by rw [← hok]
  cases hw with
  | noHeader h1 =>
    have hdel := C119_type_header T p hq h1
    rw [hph] at hdel
    exact (hpre hdel hcr).1.trans (List.prefix_append _ _)
  | @header _ _ ws xs o h1 more =>
    have hdel := C119_type_header T p hq h1
    rw [hph] at hdel
    have hdel' := more.delivered (hmaps sent)
    rw [hex sent hv] at hdel'
    rcases List.prefix_or_prefix_of_prefix hcr (List.prefix_append ws xs) with h2 | ⟨xs₁, rfl⟩
    · exact (hpre hdel h2).1.trans (List.prefix_append _ _)
    · have h2 := (List.prefix_append_right_inj ws).mp hcr
      rw [accepted_append, (hpre hdel (List.prefix_refl _)).2 rfl, List.prefix_append_right_inj]
      exact (hpre hdel' h2).1

theorem _root_.Dlhn.Drains.left_length {α : Type} {read : List UInt8 → Outcome DeErr α × List UInt8}
    (hle : ∀ bs, (read bs).2.length ≤ bs.length) {buf left : List UInt8} {vs : List α}
    (hd : Drains read buf vs left) : left.length ≤ buf.length := by
  induction hd with
  | wait h => exact Nat.le_refl _
  | @value buf left buf' v vs h more ih =>
    have := hle buf
    rw [h] at this
    exact Nat.le_trans ih this

/-- A header that was written, or a beginning of it, in a slice. -/
theorem header_slice {t : Target} {hsize d : Nat} {hbs : List UInt8} {h : Header} (std : OnShort)
    (hrun : ∀ rest, Prog.run t (Header.deserialize hsize d) (hbs ++ rest) = .ok (h, rest)) :
    (∀ rest, (Header.deserialize hsize d).runSlice t std (hbs ++ rest) = (.ok h, rest)) ∧
    ∀ pre, pre <+: hbs → pre ≠ hbs →
      ((Header.deserialize hsize d).runSlice t std pre).1 = .err .unexpectedEof := by
  have hw : ∀ rest, (Header.deserialize hsize d).runSlice t std (hbs ++ rest) = (.ok h, rest) := by
    intro rest
    have := hrun rest
    rw [Prog.runSlice_run t std] at this
    cases hx : (Header.deserialize hsize d).runSlice t std (hbs ++ rest) with
    | mk o left => rw [hx] at this; cases o <;> simp_all [withLeft]
  refine ⟨hw, fun pre hpre hne => ?_⟩
  have hs := C107_where_header t std hsize d hbs [] (.ok h) (by simpa using hw [])
  rcases hs with ⟨used, h1, -, h3⟩ | ⟨i, -⟩
  · rw [List.append_nil] at h1
    subst h1
    exact h3 std pre hpre hne
  · cases i

/-- A history of a log that describes itself is one of the values behind the header, as soon as
there is a header. -/
theorem self_lives {α ι : Type} {readHeader : List UInt8 → Outcome IoErr Header × List UInt8}
    {read : Header → List UInt8 → Outcome DeErr α × List UInt8} {head : List UInt8}
    {enc : ι → List UInt8} {h : Header} (hw : ∀ rest, readHeader (head ++ rest) = (.ok h, rest))
    (hcut : ∀ pre, pre <+: head → pre ≠ head → (readHeader pre).1 = .err .unexpectedEof)
    (h0 : (read h []).1 = .err .read) (hle : ∀ bs, (read h bs).2.length ≤ bs.length)
    {lives : List (List ι × List UInt8)} {file : List UInt8}
    (hf : SelfLives readHeader read head enc [] lives file) :
    ∃ tail, Lives (read h) enc [] lives tail ∧
      (file = head ++ tail ∨ (∀ l ∈ lives, l.2 = []) ∧ file <+: head ∧ file ≠ head) := by
  have hnil : ∀ {more : List (List ι × List UInt8)} {tail : List UInt8},
      (∀ l ∈ more, l.2 = []) → Lives (read h) enc [] more tail → tail = [] := by
    intro more tail hm hl
    have key : ∀ start, Lives (read h) enc start more tail → start = [] → tail = [] := by
      intro start hl hempty
      induction hl with
      | none => exact hempty
      | @one f' f'' written new more first last ih =>
        have h1 := ih (fun l hl => hm l (List.mem_append_left _ hl)) (hempty ▸ first)
        have h2 : written = [] := hm _ (List.mem_append_right _ (List.mem_singleton.mpr rfl))
        subst h1 h2
        cases last with
        | idle => rfl
        | append hd hw => simp
    exact key _ hl rfl
  suffices key : ∀ start, SelfLives readHeader read head enc start lives file → start = [] →
      ∃ tail, Lives (read h) enc [] lives tail ∧
      (file = head ++ tail ∨ (∀ l ∈ lives, l.2 = []) ∧ file <+: head ∧ file ≠ head) from
    key _ hf rfl
  clear hf
  intro start hf hempty
  induction hf with
  | none =>
    subst hempty
    refine ⟨[], .none, ?_⟩
    by_cases hh : head = []
    · exact .inl (by simp [hh])
    · exact .inr ⟨by simp, List.nil_prefix, fun hx => hh hx.symm⟩
  | @one f' f'' written new more first last ih =>
    obtain ⟨tail, k1, k2⟩ := ih
    have hfail : ∀ {e : IoErr}, (readHeader f').1 = .err e →
        (∀ l ∈ more, l.2 = []) ∧ tail = [] := by
      intro e he
      rcases k2 with k2 | ⟨k2, -⟩
      · rw [k2, hw] at he; cases he
      · exact ⟨k2, hnil k2 k1⟩
    cases last with
    | idle =>
      refine ⟨tail, .one k1 .idle, k2.imp_right fun ⟨g1, g2⟩ => ⟨fun l hl => ?_, g2⟩⟩
      rcases List.mem_append.mp hl with hl | hl
      · exact g1 l hl
      · rw [List.mem_singleton.mp hl]
    | torn hh hp hne =>
      obtain ⟨g1, rfl⟩ := hfail hh
      refine ⟨[], .one k1 .idle, .inr ⟨fun l hl => ?_, hp, hne⟩⟩
      rcases List.mem_append.mp hl with hl | hl
      · exact g1 l hl
      · rw [List.mem_singleton.mp hl]
    | fresh hh hp =>
      obtain ⟨-, rfl⟩ := hfail hh
      refine ⟨written, ?_, .inl rfl⟩
      have hd : Drains (read h) [] [] [] := by
        refine .wait (left := (read h []).2) ?_
        rw [← h0]
      have := Life.append (read := read h) (enc := enc) (new := new) hd hp
      exact .one k1 (by simpa using this)
    | @append rest left _ _ h' vs hh hd hp =>
      rcases k2 with k2 | ⟨-, g1, g2⟩
      · rw [k2, hw] at hh
        cases hh
        refine ⟨_, .one k1 (.append hd hp), .inl ?_⟩
        have hlt := hd.left_length hle
        rw [k2, ← List.append_assoc]
        congr 1
        rw [List.length_append, Nat.add_sub_assoc hlt, List.take_length_add_append]
      · have := hcut f' g1 g2
        rw [hh] at this; cases this

/-- What a reader that knows no types returns after such a history. -/
theorem self_history {α : Type} (t : Target) (hm : 4096 ≤ t.memLimit) (std : OnShort)
    (mode : BuildMode) (size hsize d : Nat) (hmem : 65535 * hsize ≤ t.memLimit)
    (hptr : 65535 * hsize ≤ t.isizeMax) (T : RTy) (h : Header) (hT : Announces T h)
    (hdep : depth h ≤ d) (hp : Plain T) (p : WProg IoErr) (hq : serializeHeader T = .ok p)
    (de : Header → Prog DeErr α) (val : Carrier T → α) (lives : List (List (Carrier T) × List UInt8))
    (hv : ∀ l ∈ lives, ∀ v ∈ l.1, (Real t T v ∧ DatesRebase mode T v ∧ MemoryFits t size h T v) ∧
      Recognised t (de h) (ser mode T v).exec.1 (val v))
    (he : ∃ l ∈ lives, ∃ v ∈ l.1, (ser mode T v).exec.1 ≠ []) (file : List UInt8)
    (hf : SelfLives ((Header.deserialize hsize d).runSlice t std) (fun h => (de h).runSlice t std)
      p.exec.1 (fun v => (ser mode T v).exec.1) [] lives file) :
    (∃ cs r s', ReadsSelf fileStep t mode size hsize d file cs r s') ∧
    ∀ cs r s', ReadsSelf fileStep t mode size hsize d file cs r s' →
      (((∃ e, r = .error e) ∧ file <+: p.exec.1 ∧ file ≠ p.exec.1 ∧ ∀ l ∈ lives, l.2 = []) ∨
      ∃ bodies kept, r = .ok (h, bodies, .read) ∧ Pointwise (Mirrors T) kept.flatten bodies ∧
        Pointwise (fun l k => ∃ torn, CompleteIn (fun v => (ser mode T v).exec.1) l.1 l.2 k torn)
          lives kept) := by
  obtain ⟨hd, hcnt⟩ := (announces_iff T h).mp hT
  obtain ⟨p', hq', -, -, hrun⟩ := C34_header T h hd hcnt t hsize d hmem hptr hdep
  rw [hq] at hq'
  cases hq'
  obtain ⟨l0, hl0, w0, hw0, hne⟩ := he
  obtain ⟨s1, s2⟩ := header_slice std hrun
  have hgood : ∀ l ∈ lives, ∀ v ∈ l.1, (fun v => (Real t T v ∧ DatesRebase mode T v ∧
      MemoryFits t size h T v) ∧ Recognised t (de h) (ser mode T v).exec.1 (val v)) v := hv
  obtain ⟨tail, k1, k2⟩ := self_lives s1 s2
    (((hv l0 hl0 w0 hw0).2.codes std).cut [] List.nil_prefix hne.symm)
    (fun bs => (Prog.runSlice_suffix t std (de h) bs).length_le) hf
  obtain ⟨kept, torn, w, a1, a2, a3, a4, a5, a6⟩ :=
    lives_codes (fun v => (ser mode T v).exec.1) val _ (fun v hv => hv.2.codes std)
      (hgood l0 hl0 w0 hw0) hne hgood k1
  have hx := exists_mirror t hm mode size T h hT hp
  have hok : ∀ v ∈ kept.flatten ++ [w],
      Real t T v ∧ DatesRebase mode T v ∧ MemoryFits t size h T v := fun v hx =>
    (List.mem_append.mp hx).elim (fun hx => (a3 v hx).1) fun hx => by
      rw [List.mem_singleton.mp hx]; exact a4.1
  have hpre : tail <+: ((kept.flatten ++ [w]).map fun v => (ser mode T v).exec.1).flatten := by
    rw [a2, List.map_append, List.flatten_append, List.prefix_append_right_inj]
    simpa using a5
  have hcp : ∀ v ∈ kept.flatten ++ [w], ∀ more, (Body.de t mode size h).complete t
      ((ser mode T v).exec.1 ++ more) = some (.ok (hx v).choose, more) := fun v hv =>
    recognised_complete ((hx v).choose_spec (hok v hv)).2
  have hw1 := recognised_complete ((hx w0).choose_spec (hv l0 hl0 w0 hw0).1).2
  have hall : file <+: p.exec.1 ++ tail := by
    rcases k2 with k2 | ⟨-, k2, -⟩
    · rw [k2]; exact List.prefix_refl _
    · exact k2.trans (List.prefix_append _ _)
  -- when the header was read
  have hthen : ∀ {cs : List ReadRes} {s' : List UInt8} {hd : Header},
      Runs fileStep t (Header.deserialize hsize d) file cs (.ok hd) s' → hd = h ∧ s' = tail := by
    intro cs s' hd hr
    have hfl := hr.file.1
    rcases header_written fileStep_lawful hrun hr (List.IsPrefix.trans ⟨s', hfl.symm⟩ hall) with
      ⟨i1, i2⟩ | ⟨⟨e, i1⟩, -⟩
    · cases i1
      refine ⟨rfl, ?_⟩
      rcases k2 with k2 | ⟨-, k2, k3⟩
      · rw [k2, i2] at hfl
        exact (List.append_cancel_left hfl).symm
      · rw [i2] at hfl
        exact absurd (k2.eq_of_length_le (by rw [hfl]; simp)) k3
    · cases i1
  constructor
  · obtain ⟨cs, o, s', hr⟩ := Runs.exists fileStep_lawful fileStep_live t
      (Header.deserialize hsize d) file
    rcases header_written fileStep_lawful hrun hr
      (List.IsPrefix.trans ⟨s', hr.file.1.symm⟩ hall) with ⟨rfl, -⟩ | ⟨⟨e, rfl⟩, -⟩
    · obtain ⟨-, rfl⟩ := hthen hr
      obtain ⟨ds, ws, e, s'', hb⟩ := file_reads t (Body.tame_de t mode size h)
        (fun v => (ser mode T v).exec.1) (fun v => (hx v).choose) hne hw1 _ hcp _ hpre
      exact ⟨_, _, _, .header hr hb⟩
    · exact ⟨_, _, _, .noHeader hr⟩
  · intro cs r s' hr
    cases hr with
    | noHeader hr =>
      obtain ⟨f1, f2⟩ := hr.file
      rcases header_written fileStep_lawful hrun hr (List.IsPrefix.trans ⟨s', f1.symm⟩ hall) with
        ⟨i1, -⟩ | ⟨-, i2, i3, c, i4, i5⟩
      · cases i1
      · have hs' := f2 c (List.mem_of_getLast? i4) i5
        rw [hs', List.append_nil] at f1
        rw [← f1] at i2 i3
        refine .inl ⟨⟨_, rfl⟩, i2, i3, ?_⟩
        rcases k2 with k2 | ⟨k2, -⟩
        · exact absurd (i2.eq_of_length_le (by rw [k2]; simp)) i3
        · exact k2
    | @header _ _ cs ds hd' bs e hr more =>
      obtain ⟨rfl, rfl⟩ := hthen hr
      obtain ⟨f1, f2⟩ := more.file
      obtain ⟨i1, i2, vs, left, i3, i4⟩ := more.written fileStep_lawful
        (Body.tame_de t mode size _) (fun v => (ser mode T v).exec.1) (fun v => (hx v).choose)
        ⟨w0, _, hne, hw1⟩ (kept.flatten ++ [w]) hcp (List.IsPrefix.trans ⟨s', f1.symm⟩ hpre)
      have hs' := f2 i2
      subst hs'
      rw [List.append_nil] at f1
      rw [← f1] at i4
      have hcin : CompleteIn (fun v => (ser mode T v).exec.1) (kept.flatten ++ [w]) _
          kept.flatten torn :=
        ⟨List.prefix_append _ _, a2, fun v hx => by
          rw [List.prefix_append_right_inj] at hx
          have : v = w := by simpa using hx
          exact this ▸ ⟨a5, a6⟩⟩
      have hrec := fun v hv => ((hx v).choose_spec (hok v hv)).2
      have h0 : ((Body.de t mode size _).runSlice t std []).1 = .err .read :=
        (((hx w0).choose_spec (hv l0 hl0 w0 hw0).1).2.codes std).cut [] List.nil_prefix hne.symm
      have hiff := receives_iff (fun v => (ser mode T v).exec.1) (fun v => (hx v).choose) h0 _
        (fun v hx => (hrec v hx).codes std) [_] (by simpa using hpre)
      have b1 := (hiff _ left).mpr ⟨vs, rfl, by simpa using i4⟩
      have b2 := (hiff _ torn).mpr ⟨kept.flatten, rfl, by simpa using hcin⟩
      refine .inr ⟨bs, kept, by rw [i1], ?_, a1⟩
      rw [i3, (b1.unique b2).1]
      have hsub : ∀ v ∈ kept.flatten, Real t T v ∧ DatesRebase mode T v ∧ MemoryFits t size _ T v :=
        fun v hv => hok v (List.mem_append_left _ hv)
      clear a1 a2 a3 hok hpre hcp hcin i3 i4 hrec hiff b1 b2
      generalize kept.flatten = us at hsub ⊢
      induction us with
      | nil => exact trivial
      | cons u us ih =>
        exact ⟨((hx u).choose_spec (hsub u List.mem_cons_self)).1,
          ih fun x hx => hsub x (List.mem_cons_of_mem _ hx)⟩

/-- Any number of lives of a process of which the type of the log is known, each of which ended at
any moment, in the header or behind it. The reader that knows no types finds no header only if no
byte of a value ever reached the file; if not it returns, life by life, the values of which all
bytes reached the file, and then `Err(Read)`. -/
theorem C134_history (t : Target) (hm : 4096 ≤ t.memLimit) (std : OnShort)
    (mode : BuildMode) (env : Derive.Env) (ho : FairOrder env) (size hsize d : Nat)
    (hmem : 65535 * hsize ≤ t.memLimit)
    (hptr : 65535 * hsize ≤ t.isizeMax) (T : RTy) (h : Header) (hT : Announces T h)
    (hdep : depth h ≤ d) (hp : Plain T) (p : WProg IoErr) (hq : serializeHeader T = .ok p)
    (lives : List (List (Carrier T) × List UInt8))
    (hv : ∀ l ∈ lives, ∀ v ∈ l.1, ReadsBack t mode env ⟨T, v⟩ ∧ MemoryFits t size h T v)
    (he : ∃ l ∈ lives, ∃ v ∈ l.1, (ser mode T v).exec.1 ≠ []) (file : List UInt8)
    (hf : SelfLives ((Header.deserialize hsize d).runSlice t std)
      (fun _ => (Derive.deTy t mode env T).runSlice t std)
      p.exec.1 (fun v => (ser mode T v).exec.1) [] lives file) :
    (∃ cs r s', ReadsSelf fileStep t mode size hsize d file cs r s') ∧
    ∀ cs r s', ReadsSelf fileStep t mode size hsize d file cs r s' →
      (((∃ e, r = .error e) ∧ file <+: p.exec.1 ∧ file ≠ p.exec.1 ∧ ∀ l ∈ lives, l.2 = []) ∨
      ∃ bodies kept, r = .ok (h, bodies, .read) ∧ Pointwise (Mirrors T) kept.flatten bodies ∧
        Pointwise (fun l k => ∃ torn, CompleteIn (fun v => (ser mode T v).exec.1) l.1 l.2 k torn)
          lives kept) := by
  have hx : ∀ v, ∃ w, ReadsBack t mode env ⟨T, v⟩ →
      Recognised t (Derive.deTy t mode env T) (Derive.ser mode T v).exec.1 w := by
    intro v
    by_cases h : ReadsBack t mode env ⟨T, v⟩
    · obtain ⟨w, enc, c1, c2, c3⟩ := C102_derived t hm mode env ho T v h
      exact ⟨w, fun _ => by rw [c1]; exact c3⟩
    · exact ⟨v, fun h' => absurd h' h⟩
  exact self_history t hm std mode size hsize d hmem hptr T h hT hdep hp p hq
    (fun _ => Derive.deTy t mode env T) (fun v => (hx v).choose) lives
    (fun l hl v hvl => by
      obtain ⟨h1, h2⟩ := hv l hl v hvl
      exact ⟨⟨h1.2.2.2.1, h1.2.2.2.2.1, h2⟩, (hx v).choose_spec h1⟩) he file hf

/-- The same for a process that repairs and extends the log without knowing its type. -/
theorem C134_history_untyped (t : Target) (hm : 4096 ≤ t.memLimit) (std : OnShort)
    (mode : BuildMode) (size hsize d : Nat) (hmem : 65535 * hsize ≤ t.memLimit)
    (hptr : 65535 * hsize ≤ t.isizeMax) (T : RTy) (h : Header) (hT : Announces T h)
    (hdep : depth h ≤ d) (hp : Plain T) (p : WProg IoErr) (hq : serializeHeader T = .ok p)
    (lives : List (List (Carrier T) × List UInt8))
    (hv : ∀ l ∈ lives, ∀ v ∈ l.1, Real t T v ∧ DatesRebase mode T v ∧ MemoryFits t size h T v)
    (he : ∃ l ∈ lives, ∃ v ∈ l.1, (ser mode T v).exec.1 ≠ []) (file : List UInt8)
    (hf : SelfLives ((Header.deserialize hsize d).runSlice t std)
      (fun h => (Body.de t mode size h).runSlice t std)
      p.exec.1 (fun v => (ser mode T v).exec.1) [] lives file) :
    (∃ cs r s', ReadsSelf fileStep t mode size hsize d file cs r s') ∧
    ∀ cs r s', ReadsSelf fileStep t mode size hsize d file cs r s' →
      (((∃ e, r = .error e) ∧ file <+: p.exec.1 ∧ file ≠ p.exec.1 ∧ ∀ l ∈ lives, l.2 = []) ∨
      ∃ bodies kept, r = .ok (h, bodies, .read) ∧ Pointwise (Mirrors T) kept.flatten bodies ∧
        Pointwise (fun l k => ∃ torn, CompleteIn (fun v => (ser mode T v).exec.1) l.1 l.2 k torn)
          lives kept) := by
  have hx := exists_mirror t hm mode size T h hT hp
  exact self_history t hm std mode size hsize d hmem hptr T h hT hdep hp p hq
    (fun h => Body.de t mode size h) (fun v => (hx v).choose) lives
    (fun l hl v hvl => ⟨hv l hl v hvl, ((hx v).choose_spec (hv l hl v hvl)).2⟩) he file hf

/-- A log of the sample records. The first process dies in the header; the second writes it and
dies one byte before the end of its second record; the third repairs and appends one; the fourth
does nothing. -/
example (mode : BuildMode) (std : OnShort) : let t : Target := ⟨.w32, 65535⟩
    let enc := (ser mode recordTy recordVal).exec.1
    ∃ p, serializeHeader recordTy = .ok p ∧
      SelfLives ((Header.deserialize 1 9).runSlice t std)
        (fun _ => (Derive.deTy t mode sampleEnv recordTy).runSlice t std)
        p.exec.1 (fun v => (ser mode recordTy v).exec.1) []
        [([recordVal], []), ([recordVal, recordVal], (enc ++ enc).dropLast), ([recordVal], enc),
          ([recordVal], [])] (p.exec.1 ++ enc ++ enc) := by
  intro t enc
  obtain ⟨hd, hcnt⟩ := (announces_iff _ _).mp record_announced
  obtain ⟨p, hq, hp, -, hrun⟩ := C34_header recordTy recordHeader hd hcnt t 1 9 (by decide)
    (by decide) (by decide)
  obtain ⟨s1, s2⟩ := header_slice std hrun
  have hne : p.exec.1 ≠ [] := by
    rw [hp, C30_encoding recordHeader hcnt]; simp [recordHeader, headerWire]
  have hcut : p.exec.1.dropLast ≠ p.exec.1 := fun h => by
    have := congrArg List.length h
    have := List.length_pos_iff.mpr hne
    simp at *
    omega
  obtain ⟨w, e', c1, -, c3⟩ := C102_derived t (by decide) mode sampleEnv sample_fair recordTy recordVal
    (record_reads t (by decide) mode)
  have hc := c3.codes std
  have henc : e' = enc := by show e' = (ser mode recordTy recordVal).exec.1; rw [c1]
  rw [henc] at hc
  have hn : enc ≠ [] := by cases mode <;> decide +kernel
  have hsplit : (enc ++ enc).dropLast = enc ++ enc.dropLast := List.dropLast_append_of_ne_nil hn
  refine ⟨p, hq, ?_⟩
  refine .one (more := [_, _, _]) (.one (more := [_, _]) (f' := p.exec.1 ++ (enc ++ enc).dropLast)
    (.one (more := [_]) (f' := p.exec.1.dropLast) (.one (more := []) .none ?_) ?_) ?_) .idle
  · exact .torn (e := .unexpectedEof) (s2 [] List.nil_prefix hne.symm) (List.dropLast_prefix _) hcut
  · exact .fresh (e := .unexpectedEof) (s2 _ (List.dropLast_prefix _) hcut)
      (by simpa using List.dropLast_prefix _)
  · have hd : Drains ((Derive.deTy t mode sampleEnv recordTy).runSlice t std) (enc ++ enc.dropLast)
        [w] enc.dropLast := by
      refine .value (hc.whole _) (.wait (left := _) (Prod.ext ?_ rfl))
      refine hc.cut _ (List.dropLast_prefix _) fun h => ?_
      have := congrArg List.length h
      have := List.length_pos_iff.mpr hn
      simp at *
      omega
    have := SelfLife.append (readHeader := (Header.deserialize 1 9).runSlice t std)
      (read := fun _ => (Derive.deTy t mode sampleEnv recordTy).runSlice t std) (head := p.exec.1)
      (enc := fun v => (ser mode recordTy v).exec.1) (new := [recordVal]) (written := enc)
      (s1 (enc ++ enc.dropLast)) hd (by simp [enc])
    rw [hsplit]
    have hl : (p.exec.1 ++ (enc ++ enc.dropLast)).take ((p.exec.1 ++ (enc ++ enc.dropLast)).length -
        enc.dropLast.length) = p.exec.1 ++ enc := by
      rw [← List.append_assoc, List.length_append, Nat.add_sub_cancel, List.take_left]
    rw [hl] at this
    exact this

/-- The hypotheses of the theorems are met by these records. -/
example (mode : BuildMode) : let t : Target := ⟨.w32, 65535⟩
    Announces recordTy recordHeader ∧ Plain recordTy ∧ depth recordHeader ≤ 9 ∧
    ReadsBack t mode sampleEnv ⟨recordTy, recordVal⟩ ∧
    MemoryFits t 1 recordHeader recordTy recordVal ∧ (ser mode recordTy recordVal).exec.1 ≠ [] := by
  obtain ⟨h1, -, -, h4⟩ := record_meets ⟨.w32, 65535⟩ mode 1 (by decide)
  exact ⟨record_announced, h1, by decide, record_reads _ (by decide) mode, h4,
    by cases mode <;> decide +kernel⟩

end Dlhn.Props
