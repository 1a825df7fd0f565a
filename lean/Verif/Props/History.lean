import Verif.Props.Log
/-!
# C130 for dynamic values and derived types: histories of a log

`Lives` (Spec/Log.lean) is a history of a log file and the processes that wrote to it.
-/
namespace Dlhn.Props

open Spec De

theorem lives_codes {α ι : Type} {read : List UInt8 → Outcome DeErr α × List UInt8}
    (enc : ι → List UInt8) (val : ι → α) (Good : ι → Prop)
    (hc : ∀ v, Good v → Codes read (enc v) (val v)) {w0 : ι} (hw0 : Good w0) (hn0 : enc w0 ≠ [])
    {lives : List (List ι × List UInt8)} (hv : ∀ l ∈ lives, ∀ v ∈ l.1, Good v)
    {file : List UInt8} (hf : Lives read enc [] lives file) :
    ∃ (kept : List (List ι)) (torn : List UInt8) (w : ι),
      Pointwise (fun l k => ∃ torn, CompleteIn enc l.1 l.2 k torn) lives kept ∧
      file = (kept.flatten.map enc).flatten ++ torn ∧
      (∀ v ∈ kept.flatten, Good v) ∧ Good w ∧ torn <+: enc w ∧ torn ≠ enc w := by
  have h0 : (read []).1 = .err .read := (hc w0 hw0).cut [] List.nil_prefix hn0.symm
  have hne : ∀ v, Good v → enc v ≠ [] := fun v hv he => by
    have := (hc v hv).whole []
    rw [he, List.append_nil] at this
    rw [this] at h0; simp at h0
  generalize hempty : ([] : List UInt8) = start at hf
  induction hf with
  | none =>
    subst hempty
    exact ⟨[], [], w0, trivial, rfl, by simp, hw0, List.nil_prefix, hn0.symm⟩
  | @one f' f'' written new more first last ih =>
    obtain ⟨kept, torn, w, k1, k2, k3, k4, k5, k6⟩ :=
      ih fun l hl => hv l (List.mem_append_left _ hl)
    have hnew : ∀ v ∈ new, Good v := hv _ (List.mem_append_right _ (List.mem_singleton.mpr rfl))
    cases last with
    | idle =>
      refine ⟨kept ++ [[]], torn, w, pointwise_append k1 ⟨[], List.nil_prefix, rfl, fun v hx => ?_⟩,
        by simpa using k2, by simpa using k3, k4, k5, k6⟩
      have hx : v ∈ new := hx.subset (by simp)
      exact ⟨List.nil_prefix, (hne v (hnew v hx)).symm⟩
    | @append left _ _ vs hd hw =>
      have hok : ∀ v ∈ kept.flatten ++ [w], Good v := fun v hx =>
        (List.mem_append.mp hx).elim (k3 v) fun hx => by rw [List.mem_singleton.mp hx]; exact k4
      have hcin : CompleteIn enc (kept.flatten ++ [w]) f' kept.flatten torn :=
        ⟨List.prefix_append _ _, k2, fun v hx => by
          rw [List.prefix_append_right_inj] at hx
          have : v = w := by simpa using hx
          exact this ▸ ⟨k5, k6⟩⟩
      have hpre : f' <+: ((kept.flatten ++ [w]).map enc).flatten := by
        rw [k2, List.map_append, List.flatten_append, List.prefix_append_right_inj]
        simpa using k5
      have a1 := (receives_iff enc val h0 _ (fun v hx => hc v (hok v hx)) [f'] (by simpa using hpre)
        (kept.flatten.map val) torn).mpr ⟨_, rfl, by simpa using hcin⟩
      have a2 : Receives read [] [f'] (vs ++ []) left := .piece (by simpa using hd) .stop
      obtain ⟨-, hleft⟩ := a1.unique a2
      rw [← hleft]
      have hcut : f'.take (f'.length - torn.length) = (kept.flatten.map enc).flatten := by
        rw [k2, List.length_append, Nat.add_sub_cancel, List.take_left]
      obtain ⟨ks, torn', c1, c2⟩ := CompleteIn.exists _ new written hw
      have hfile : f'.take (f'.length - torn.length) ++ written
          = ((kept ++ [ks]).flatten.map enc).flatten ++ torn' := by
        rw [hcut, c1.2.1, List.flatten_append, List.map_append, List.flatten_append]
        simp
      have hks : ∀ v ∈ (kept ++ [ks]).flatten, Good v := by
        intro v hx
        rw [List.flatten_append] at hx
        rcases List.mem_append.mp hx with hx | hx
        · exact k3 v hx
        · exact hnew v (c1.1.subset (by simpa using hx))
      obtain ⟨rest, hrest⟩ := c1.1
      cases rest with
      | nil =>
        obtain rfl := c2 (by simpa using hrest)
        exact ⟨_, [], w0, pointwise_append k1 ⟨_, c1⟩, hfile, hks, hw0, List.nil_prefix, hn0.symm⟩
      | cons u rest =>
        obtain ⟨g1, g2⟩ := c1.2.2 u ⟨rest, by simpa using hrest⟩
        exact ⟨_, torn', u, pointwise_append k1 ⟨_, c1⟩, hfile, hks, hnew u (by simp [← hrest]),
          g1, g2⟩

theorem file_reads {α ι : Type} (t : Target) {p : Prog DeErr α} (hp : Prog.Tame De.orRead p)
    (enc : ι → List UInt8) (val : ι → α) {w0 : ι} {b0 : α} (hn0 : enc w0 ≠ [])
    (hw0 : ∀ more, p.complete t (enc w0 ++ more) = some (.ok b0, more)) (sent : List ι)
    (hc : ∀ v ∈ sent, ∀ more, p.complete t (enc v ++ more) = some (.ok (val v), more))
    (data : List UInt8) (hd : data <+: (sent.map enc).flatten) :
    ∃ cs ws e s', ReadsOut fileStep t p data cs ws e s' := by
  induction sent generalizing data with
  | nil =>
    have h0 : data = [] := List.prefix_nil.mp hd
    subst h0
    obtain ⟨cs, o, s', h⟩ := Runs.exists fileStep_lawful fileStep_live t p []
    have hh : handed cs = [] := (List.append_eq_nil_iff.mp h.file.1.symm).1
    rcases h.written fileStep_lawful hp (hw0 [])
      ((before_prefix cs).trans (by rw [hh]; exact List.nil_prefix)) with ⟨-, i, -⟩ | ⟨i, -⟩
    · exact absurd (hh ▸ i).symm hn0
    · exact ⟨_, _, _, _, .stop (i ▸ h)⟩
  | cons v sent ih =>
    obtain ⟨cs, o, s', h⟩ := Runs.exists fileStep_lawful fileStep_live t p data
    have hf := h.file.1
    rcases h.written fileStep_lawful hp (hc v List.mem_cons_self _)
      ((before_prefix cs).trans (List.IsPrefix.trans ⟨s', hf.symm⟩ hd)) with ⟨i1, i2, -⟩ | ⟨i, -⟩
    · rw [hf, i2, List.map_cons, List.flatten_cons, List.prefix_append_right_inj] at hd
      obtain ⟨ds, ws, e, s'', hr⟩ := ih (fun u hu => hc u (List.mem_cons_of_mem _ hu)) s' hd
      exact ⟨_, _, _, _, .next (i1 ▸ h) hr⟩
    · exact ⟨_, _, _, _, .stop (i ▸ h)⟩

theorem history_codes {α ι : Type} (t : Target) (std : OnShort) {p : Prog DeErr α}
    (hp : Prog.Tame De.orRead p) (enc : ι → List UInt8) (val : ι → α) (Good : ι → Prop)
    (hr : ∀ v, Good v → Recognised t p (enc v) (val v)) {w0 : ι} (hw0 : Good w0)
    (hn0 : enc w0 ≠ [])
    {lives : List (List ι × List UInt8)} (hv : ∀ l ∈ lives, ∀ v ∈ l.1, Good v)
    {file : List UInt8} (hf : Lives (p.runSlice t std) enc [] lives file) :
    (∃ cs ws e s', ReadsOut fileStep t p file cs ws e s') ∧
    ∀ cs ws e s', ReadsOut fileStep t p file cs ws e s' → e = .read ∧ ∃ kept : List (List ι), ws = kept.flatten.map val ∧
      (∀ v ∈ kept.flatten, Good v) ∧
      Pointwise (fun l k => ∃ torn, CompleteIn enc l.1 l.2 k torn) lives kept := by
  have hc := fun v hv => (hr v hv).codes std
  have hcp : ∀ v, Good v → ∀ more, p.complete t (enc v ++ more) = some (.ok (val v), more) := by
    intro v hv more
    have hx : Prog.run t p (enc v ++ [0]) = .ok (val v, [0]) := by
      rw [Prog.runSlice_run t std, (hc v hv).whole [0]]; rfl
    obtain ⟨used, e1, e2, -⟩ := Prog.complete_split t (Prog.complete_of_rest t hx (by simp))
    rw [← List.append_cancel_right e1] at e2
    exact e2 more
  obtain ⟨kept, torn, w, k1, k2, k3, k4, k5, k6⟩ := lives_codes enc val Good hc hw0 hn0 hv hf
  have hok : ∀ v ∈ kept.flatten ++ [w], Good v := fun v hx =>
    (List.mem_append.mp hx).elim (k3 v) fun hx => by rw [List.mem_singleton.mp hx]; exact k4
  have hpre : file <+: ((kept.flatten ++ [w]).map enc).flatten := by
    rw [k2, List.map_append, List.flatten_append, List.prefix_append_right_inj]
    simpa using k5
  refine ⟨file_reads t hp enc val hn0 (hcp w0 hw0) _ (fun v hx => hcp v (hok v hx)) file hpre,
    fun cs ws e s' h => ?_⟩
  obtain ⟨f1, f2⟩ := h.file
  obtain ⟨i1, i2, vs, left, i3, i4⟩ := h.written fileStep_lawful hp enc val
    ⟨w0, _, hn0, hcp w0 hw0⟩ (kept.flatten ++ [w]) (fun v hx => hcp v (hok v hx))
    (List.IsPrefix.trans ⟨s', f1.symm⟩ hpre)
  have hs' := f2 i2
  subst hs'
  rw [List.append_nil] at f1
  rw [← f1] at i4
  have hcin : CompleteIn enc (kept.flatten ++ [w]) file kept.flatten torn :=
    ⟨List.prefix_append _ _, k2, fun v hx => by
      rw [List.prefix_append_right_inj] at hx
      have : v = w := by simpa using hx
      exact this ▸ ⟨k5, k6⟩⟩
  have h0 : (p.runSlice t std []).1 = .err .read :=
    (hc w0 hw0).cut [] List.nil_prefix hn0.symm
  have hiff := receives_iff enc val h0 _ (fun v hx => hc v (hok v hx)) [file] (by simpa using hpre)
  have a1 := (hiff _ left).mpr ⟨vs, rfl, by simpa using i4⟩
  have a2 := (hiff _ torn).mpr ⟨kept.flatten, rfl, by simpa using hcin⟩
  exact ⟨i1, kept, i3.trans (a1.unique a2).1, k3, k1⟩

/-- A log of dynamic values: any number of lives of a process that cuts off what is torn and
appends, each of which ended at any moment. Reading gives, life by life, the values of which all
bytes reached the file. -/
theorem C130_history_body (t : Target) (hm : 4096 ≤ t.memLimit) (std : OnShort) (mode : BuildMode)
    (size : Nat) (h : Header) (lives : List (List Body × List UInt8))
    (hv : ∀ l ∈ lives, ∀ b ∈ l.1, Body.validate h b = true ∧ Exists t b ∧ CleanDecimals b ∧
      DatesFit mode b ∧ VectorsFit t size b)
    (he : ∃ l ∈ lives, ∃ b ∈ l.1, (Body.toVec mode b).1 ≠ []) (file : List UInt8)
    (hf : Lives ((Body.de t mode size h).runSlice t std) (fun b => (Body.toVec mode b).1) [] lives
      file) :
    (∃ cs bs e s', ReadsOut fileStep t (Body.de t mode size h) file cs bs e s') ∧
    ∀ cs bs e s', ReadsOut fileStep t (Body.de t mode size h) file cs bs e s' → e = .read ∧ ∃ kept : List (List Body), bs = kept.flatten ∧
      Pointwise (fun l k => ∃ torn, CompleteIn (fun b => (Body.toVec mode b).1) l.1 l.2 k torn)
        lives kept := by
  obtain ⟨l, hl, b, hb, hne⟩ := he
  have key := history_codes t std (Body.tame_de t mode size h)
    (fun b => (Body.toVec mode b).1) id
    (fun b => Body.validate h b = true ∧ Exists t b ∧ CleanDecimals b ∧ DatesFit mode b ∧
      VectorsFit t size b)
    (fun b ⟨h1, h2, h3, h4, h5⟩ => by
      obtain ⟨enc, g1, g2⟩ := C102_body t hm mode size h b h1 h2 h3 h4 h5
      rw [g1]; exact g2)
    (hv l hl b hb) hne hv hf
  refine ⟨key.1, fun cs bs e s' hr => ?_⟩
  obtain ⟨h1, kept, h2, -, h3⟩ := key.2 cs bs e s' hr
  rw [List.map_id] at h2
  exact ⟨h1, kept, h2, h3⟩

/-- A log of values of a derived type; what is returned for `v` is what comes back of it
(property C71). -/
theorem C130_history_derived (t : Target) (hm : 4096 ≤ t.memLimit) (std : OnShort)
    (mode : BuildMode) (env : Derive.Env) (ho : FairOrder env) (T : RTy)
    (lives : List (List (Derive.Carrier T) × List UInt8))
    (hv : ∀ l ∈ lives, ∀ v ∈ l.1, ReadsBack t mode env ⟨T, v⟩)
    (he : ∃ l ∈ lives, ∃ v ∈ l.1, (Derive.ser mode T v).exec.1 ≠ []) (file : List UInt8)
    (hf : Lives ((Derive.deTy t mode env T).runSlice t std) (fun v => (Derive.ser mode T v).exec.1)
      [] lives file) :
    (∃ cs ws e s', ReadsOut fileStep t (Derive.deTy t mode env T) file cs ws e s') ∧
    ∀ cs ws e s', ReadsOut fileStep t (Derive.deTy t mode env T) file cs ws e s' → e = .read ∧ ∃ kept : List (List (Derive.Carrier T)),
      Pointwise (Returned env T) kept.flatten ws ∧
      Pointwise (fun l k =>
        ∃ torn, CompleteIn (fun v => (Derive.ser mode T v).exec.1) l.1 l.2 k torn) lives kept := by
  have hx : ∀ v, ∃ w, ReadsBack t mode env ⟨T, v⟩ → Returned env T v w ∧
      Recognised t (Derive.deTy t mode env T) (Derive.ser mode T v).exec.1 w := by
    intro v
    by_cases h : ReadsBack t mode env ⟨T, v⟩
    · obtain ⟨w, enc, c1, c2, c3⟩ := C102_derived t hm mode env ho T v h
      exact ⟨w, fun _ => ⟨c2, by rw [c1]; exact c3⟩⟩
    · exact ⟨v, fun h' => absurd h' h⟩
  obtain ⟨l, hl, v, hvl, hne⟩ := he
  have key := history_codes t std (Derive.tame_deTy t mode env T)
    (fun v => (Derive.ser mode T v).exec.1) (fun v => (hx v).choose)
    (fun v => ReadsBack t mode env ⟨T, v⟩) (fun v h => ((hx v).choose_spec h).2) (hv l hl v hvl) hne hv hf
  refine ⟨key.1, fun cs ws e s' hr => ?_⟩
  obtain ⟨h1, kept, h2, h3, h4⟩ := key.2 cs ws e s' hr
  refine ⟨h1, kept, ?_, h4⟩
  rw [h2]
  generalize kept.flatten = us at h3 ⊢
  induction us with
  | nil => exact trivial
  | cons u us ih =>
    exact ⟨((hx u).choose_spec (h3 u List.mem_cons_self)).1,
      ih fun x hx => h3 x (List.mem_cons_of_mem _ hx)⟩

/-- Two lives of logs, of dynamic values and of values of a derived type: one dies one byte before
the end of its second value, the next one dies before it has written anything. -/
example (mode : BuildMode) (std : OnShort) : let t : Target := ⟨.w32, 4096⟩
    let enc := (Body.toVec mode sampleBody).1
    let enc' := (Derive.ser mode recordTy recordVal).exec.1
    Lives ((Body.de t mode 56 sampleShape).runSlice t std) (fun b => (Body.toVec mode b).1) []
      [([sampleBody, sampleBody], (enc ++ enc).dropLast), ([sampleBody], [])]
      (enc ++ enc).dropLast ∧ enc ≠ [] ∧
    Lives ((Derive.deTy t mode sampleEnv recordTy).runSlice t std)
      (fun v => (Derive.ser mode recordTy v).exec.1) []
      [([recordVal, recordVal], (enc' ++ enc').dropLast), ([recordVal], [])]
      (enc' ++ enc').dropLast ∧ enc' ≠ [] := by
  refine ⟨?_, by cases mode <;> decide +kernel, ?_, by cases mode <;> decide +kernel⟩
  · refine .one (more := [_]) (.one (more := []) (f' := []) .none ?_) .idle
    refine .append (file := []) (left := []) (vs := []) (.wait (left := []) ?_)
      (by simpa using List.dropLast_prefix _)
    cases mode <;> cases std <;> rfl
  · refine .one (more := [_]) (.one (more := []) (f' := []) .none ?_) .idle
    refine .append (file := []) (left := []) (vs := []) (.wait (left := []) ?_)
      (by simpa using List.dropLast_prefix _)
    cases mode <;> cases std <;> rfl

/-- The same for the types of serde's data model: on every target, the loop ends on a log. -/
theorem C130_history_ends (t : Target) (hm : 4096 ≤ t.memLimit) (std : OnShort) (ty : Ty)
    (hs : Supported ty) (h0 : 0 < minSize ty) (hi : ∃ w, Has t ty w)
    (lives : List (List Val × List UInt8)) (hv : ∀ l ∈ lives, ∀ v ∈ l.1, Has t ty v)
    (file : List UInt8)
    (hf : Lives ((de t ty).runSlice t std) (fun v => (Ser.toVec v).1) [] lives file) :
    ∃ cs vs e s', ReadsOut fileStep t (de t ty) file cs vs e s' := by
  obtain ⟨w, hw⟩ := hi
  exact (history_codes t std (tame_de t ty) (fun v => (Ser.toVec v).1) id (Has t ty)
    (fun v h => by
      obtain ⟨enc, g1, g2⟩ := C102_typed t hm ty hs v h
      rw [g1]; exact g2) hw (nonempty_of_has t ty hs h0 w hw) hv hf).1

end Dlhn.Props
