import Verif.Props.AnyWriterAll
/-!
# C130 for dynamic values and derived types: crashes, and what is there ever after
-/
namespace Dlhn.Props

open Spec hiding variantFields
open De

variable {σ : Type} {step : RStep σ}

/-- Serialize values one after another into one writer: `for v in values { v.serialize(..)? }`. -/
def writeEach {β : Type} (ser : β → WProg SerErr) : List β → WProg SerErr
  | [] => .skip
  | v :: vs => (ser v).andThen (writeEach ser vs)

theorem writeEach_delivered {β : Type} {ser : β → WProg SerErr}
    (hmaps : ∀ v, (ser v).Maps (fun _ => SerErr.write)) (sent : List β)
    (hok : ∀ v ∈ sent, ((ser v).exec).2 = .ok ()) {ω : Type} {wstep : WStep ω} {a a' : ω}
    {ws : List WCall} {o : Outcome SerErr Unit} (hw : WRuns wstep (writeEach ser sent) a ws o a') :
    Delivered (fun _ => SerErr.write) ((sent.map fun v => (ser v).exec.1).flatten, .ok ()) ws o := by
  have hm : ∀ l : List β, (writeEach ser l).Maps (fun _ => SerErr.write) := by
    intro l
    induction l with
    | nil => exact trivial
    | cons v l ih => exact (hmaps v).andThen ih
  have hex : ∀ l : List β, (∀ v ∈ l, ((ser v).exec).2 = .ok ()) →
      (writeEach ser l).exec = ((l.map fun v => (ser v).exec.1).flatten, .ok ()) := by
    intro l hl
    induction l with
    | nil => rfl
    | cons v l ih =>
      have h1 : (ser v).exec = ((ser v).exec.1, .ok ()) := by
        rw [← hl v List.mem_cons_self]
      rw [writeEach, WProg.exec_andThen_ok h1, ih fun u hu => hl u (List.mem_cons_of_mem _ hu),
        List.map_cons, List.flatten_cons]
  have hd := hw.delivered (hm sent)
  rwa [hex sent hok] at hd

/-- `C130_crash` for dynamic values: any writer, which may fail; a crash after any of its calls;
any reader that delivers what had been accepted or a beginning of it. The loop returns exactly the
bodies of which all bytes were delivered. -/
theorem C130_crash_body {ω : Type} {wstep : WStep ω} (hl : step.Lawful) (t : Target)
    (hm : 4096 ≤ t.memLimit) (mode : BuildMode) (size : Nat) (h : Header) (sent : List Body)
    (hv : ∀ b ∈ sent, Body.validate h b = true ∧ Spec.Exists t b ∧ CleanDecimals b ∧
      DatesFit mode b ∧ VectorsFit t size b)
    (he : ∃ b ∈ sent, (Body.toVec mode b).1 ≠ []) {a a' : ω} {ws ws₁ : List WCall}
    {o : Outcome SerErr Unit} (hw : WRuns wstep (writeEach (Body.ser mode) sent) a ws o a')
    (hc : ws₁ <+: ws) {s s' : σ} {cs : List ReadRes} {bs : List Body} {e : DeErr}
    (hr : ReadsOut step t (Body.de t mode size h) s cs bs e s') (hd : handed cs <+: accepted ws₁) :
    e = .read ∧ ∃ left, CompleteIn (fun b => (Body.toVec mode b).1) sent (handed cs) bs left := by
  have hdel := writeEach_delivered (Body.maps_ser mode) sent (fun b hb => by
    obtain ⟨h1, h2, h3, h4, h5⟩ := hv b hb
    obtain ⟨enc, g1, -⟩ := C35_roundtrip t hm mode size h b h1 h2 h3 h4 h5
    exact congrArg Prod.snd g1) hw
  obtain ⟨h1, -, h3⟩ := C130_body hl t hm mode size h sent hv he hr (hd.trans (hdel.started hc))
  exact ⟨h1, h3⟩

/-- `C130_crash` for derived types. -/
theorem C130_crash_derived {ω : Type} {wstep : WStep ω} (hl : step.Lawful) (t : Target)
    (hm : 4096 ≤ t.memLimit) (mode : BuildMode) (env : Derive.Env) (ho : FairOrder env) (T : RTy)
    (sent : List (Derive.Carrier T)) (hv : ∀ v ∈ sent, ReadsBack t mode env ⟨T, v⟩)
    (he : ∃ v ∈ sent, (Derive.ser mode T v).exec.1 ≠ []) {a a' : ω} {ws ws₁ : List WCall}
    {o : Outcome SerErr Unit} (hw : WRuns wstep (writeEach (Derive.ser mode T) sent) a ws o a')
    (hc : ws₁ <+: ws) {s s' : σ} {cs : List ReadRes} {us : List (Derive.Carrier T)} {e : DeErr}
    (hr : ReadsOut step t (Derive.deTy t mode env T) s cs us e s')
    (hd : handed cs <+: accepted ws₁) :
    e = .read ∧ ∃ vs left, Pointwise (Returned env T) vs us ∧
      CompleteIn (fun v => (Derive.ser mode T v).exec.1) sent (handed cs) vs left := by
  have hdel := writeEach_delivered
    (fun v => Derive.wclosed_ser Derive.wclosed_maps mode (.inr trivial) T v) sent (fun v hvs => by
      obtain ⟨w, enc, g1, -⟩ := C102_derived t hm mode env ho T v (hv v hvs)
      exact congrArg Prod.snd g1) hw
  obtain ⟨h1, -, h3⟩ := C130_derived hl t hm mode env ho T sent hv he hr
    (hd.trans (hdel.started hc))
  exact ⟨h1, h3⟩

/-- `C130_kept` for dynamic values: whatever follows, bodies that are all there come first. -/
theorem C130_kept_body (hl : step.Lawful) (t : Target) (hm : 4096 ≤ t.memLimit) (mode : BuildMode)
    (size : Nat) (h : Header) (sent : List Body)
    (hv : ∀ b ∈ sent, Body.validate h b = true ∧ Spec.Exists t b ∧ CleanDecimals b ∧
      DatesFit mode b ∧ VectorsFit t size b) (rest : List UInt8) {s s' : σ} {cs : List ReadRes}
    {bs : List Body} {e : DeErr} (hr : ReadsOut step t (Body.de t mode size h) s cs bs e s')
    (hc : handed cs = (sent.map fun b => (Body.toVec mode b).1).flatten ++ rest) :
    sent <+: bs := by
  obtain ⟨us, hu⟩ := hr.kept hl (Body.tame_de t mode size h) (fun b => (Body.toVec mode b).1) id
    sent rest (fun b hb => by
      obtain ⟨h1, h2, h3, h4, h5⟩ := hv b hb
      obtain ⟨enc, g1, g2⟩ := C102_body t hm mode size h b h1 h2 h3 h4 h5
      rw [g1]
      exact recognised_complete g2) hc
  rw [List.map_id] at hu
  exact ⟨us, hu.symm⟩

/-- For derived types. -/
theorem C130_kept_derived (hl : step.Lawful) (t : Target) (hm : 4096 ≤ t.memLimit)
    (mode : BuildMode) (env : Derive.Env) (ho : FairOrder env) (T : RTy)
    (sent : List (Derive.Carrier T)) (hv : ∀ v ∈ sent, ReadsBack t mode env ⟨T, v⟩)
    (rest : List UInt8) {s s' : σ} {cs : List ReadRes} {us : List (Derive.Carrier T)} {e : DeErr}
    (hr : ReadsOut step t (Derive.deTy t mode env T) s cs us e s')
    (hc : handed cs = (sent.map fun v => (Derive.ser mode T v).exec.1).flatten ++ rest) :
    ∃ first more, us = first ++ more ∧ Pointwise (Returned env T) sent first := by
  have hx : ∀ v, ∃ w, v ∈ sent → Returned env T v w ∧
      Recognised t (Derive.deTy t mode env T) (Derive.ser mode T v).exec.1 w := by
    intro v
    by_cases h : v ∈ sent
    · obtain ⟨w, enc, c1, c2, c3⟩ := C102_derived t hm mode env ho T v (hv v h)
      exact ⟨w, fun _ => ⟨c2, by rw [c1]; exact c3⟩⟩
    · exact ⟨v, fun h' => absurd h' h⟩
  obtain ⟨more, hu⟩ := hr.kept hl (Derive.tame_deTy t mode env T)
    (fun v => (Derive.ser mode T v).exec.1) (fun v => (hx v).choose) sent rest
    (fun v h => recognised_complete ((hx v).choose_spec h).2) hc
  refine ⟨_, more, hu, ?_⟩
  have hsub : ∀ v ∈ sent, v ∈ sent := fun v h => h
  revert hsub
  suffices H : ∀ l : List (Derive.Carrier T), (∀ v ∈ l, v ∈ sent) →
      Pointwise (Returned env T) l (l.map fun v => (hx v).choose) from H sent
  intro l hl
  induction l with
  | nil => exact trivial
  | cons u l ih =>
    exact ⟨((hx u).choose_spec (hl u List.mem_cons_self)).1,
      ih fun x hx => hl x (List.mem_cons_of_mem _ hx)⟩

theorem durable_of {ι : Type} {enc : ι → List UInt8} {before after : List (List ι × List UInt8)}
    {new : List ι} {kept : List (List ι)}
    (hk : Pointwise (fun l k => ∃ torn, CompleteIn enc l.1 l.2 k torn)
      (before ++ (new, (new.map enc).flatten) :: after) kept) :
    ∃ a b, kept.flatten = a ++ new ++ b := by
  induction before generalizing kept with
  | nil =>
    cases kept with
    | nil => exact hk.elim
    | cons k kept =>
      obtain ⟨⟨torn, hk⟩, -⟩ := hk
      have hk : k = new := (hk.all rfl).1
      exact ⟨[], kept.flatten, by rw [hk]; simp⟩
  | cons l before ih =>
    cases kept with
    | nil => exact hk.elim
    | cons k kept =>
      obtain ⟨a, b, hab⟩ := ih hk.2
      exact ⟨k ++ a, b, by rw [List.flatten_cons, hab]; simp⟩

theorem pointwise_split {α β : Type} {R : α → β → Prop} : ∀ {xs ys : List α} {zs : List β},
    Pointwise R (xs ++ ys) zs → ∃ us vs, zs = us ++ vs ∧ Pointwise R xs us ∧ Pointwise R ys vs
  | [], _, zs, h => ⟨[], zs, rfl, trivial, h⟩
  | _ :: _, _, [], h => h.elim
  | _ :: xs, _, z :: zs, h => by
    obtain ⟨us, vs, rfl, h1, h2⟩ := pointwise_split h.2
    exact ⟨z :: us, vs, rfl, ⟨h.1, h1⟩, h2⟩

/-- `C130_durable` for dynamic values: bodies all of whose bytes were written in some life are
there ever after. -/
theorem C130_durable_body (t : Target) (hm : 4096 ≤ t.memLimit) (std : OnShort) (mode : BuildMode)
    (size : Nat) (h : Header) (before after : List (List Body × List UInt8)) (new : List Body)
    (hv : ∀ l ∈ before ++ (new, (new.map fun b => (Body.toVec mode b).1).flatten) :: after,
      ∀ b ∈ l.1, Body.validate h b = true ∧ Spec.Exists t b ∧ CleanDecimals b ∧
        DatesFit mode b ∧ VectorsFit t size b)
    (he : ∃ b ∈ new, (Body.toVec mode b).1 ≠ []) (file : List UInt8)
    (hf : Lives ((Body.de t mode size h).runSlice t std) (fun b => (Body.toVec mode b).1) []
      (before ++ (new, (new.map fun b => (Body.toVec mode b).1).flatten) :: after) file)
    {cs : List ReadRes} {bs : List Body} {e : DeErr} {s' : List UInt8}
    (hr : ReadsOut fileStep t (Body.de t mode size h) file cs bs e s') :
    ∃ a b, bs = a ++ new ++ b := by
  obtain ⟨b, hb, hne⟩ := he
  obtain ⟨-, kept, rfl, hk⟩ := (C130_history_body t hm std mode size h _ hv
    ⟨_, List.mem_append_right _ List.mem_cons_self, b, hb, hne⟩ file hf).2 _ _ _ _ hr
  exact durable_of hk

/-- For derived types: what comes back of the values. -/
theorem C130_durable_derived (t : Target) (hm : 4096 ≤ t.memLimit) (std : OnShort)
    (mode : BuildMode) (env : Derive.Env) (ho : FairOrder env) (T : RTy)
    (before after : List (List (Derive.Carrier T) × List UInt8)) (new : List (Derive.Carrier T))
    (hv : ∀ l ∈ before ++ (new, (new.map fun v => (Derive.ser mode T v).exec.1).flatten) :: after,
      ∀ v ∈ l.1, ReadsBack t mode env ⟨T, v⟩)
    (he : ∃ v ∈ new, (Derive.ser mode T v).exec.1 ≠ []) (file : List UInt8)
    (hf : Lives ((Derive.deTy t mode env T).runSlice t std) (fun v => (Derive.ser mode T v).exec.1)
      [] (before ++ (new, (new.map fun v => (Derive.ser mode T v).exec.1).flatten) :: after) file)
    {cs : List ReadRes} {us : List (Derive.Carrier T)} {e : DeErr} {s' : List UInt8}
    (hr : ReadsOut fileStep t (Derive.deTy t mode env T) file cs us e s') :
    ∃ a new' b, us = a ++ new' ++ b ∧ Pointwise (Returned env T) new new' := by
  obtain ⟨v, hvn, hne⟩ := he
  obtain ⟨-, kept, hk1, hk⟩ := (C130_history_derived t hm std mode env ho T _ hv
    ⟨_, List.mem_append_right _ List.mem_cons_self, v, hvn, hne⟩ file hf).2 _ _ _ _ hr
  obtain ⟨a, b, hab⟩ := durable_of hk
  rw [hab] at hk1
  obtain ⟨us1, us2, rfl, p1, -⟩ := pointwise_split hk1
  obtain ⟨us3, us4, rfl, -, p2⟩ := pointwise_split p1
  exact ⟨us3, us4, us2, rfl, p2⟩

/-- A history with a life that wrote everything: two bodies, and then a life that dies at once. -/
example (mode : BuildMode) (std : OnShort) {cs : List ReadRes} {bs : List Body} {e : DeErr}
    {s' : List UInt8} : let t : Target := ⟨.w32, 4096⟩
    let enc := (Body.toVec mode sampleBody).1
    ReadsOut fileStep t (Body.de t mode 56 sampleShape) (enc ++ enc) cs bs e s' →
      ∃ a b, bs = a ++ [sampleBody, sampleBody] ++ b := by
  intro t enc hr
  have hm := sampleBody_meets t mode 56 (by decide)
  refine C130_durable_body t (by decide) std mode 56 sampleShape [] [([sampleBody], [])]
    [sampleBody, sampleBody] ?_ ⟨sampleBody, List.mem_cons_self, by cases mode <;> decide +kernel⟩
    (enc ++ enc) ?_ hr
  · intro l hl b hb
    have hb : b = sampleBody := by
      simp only [List.nil_append, List.mem_cons, List.not_mem_nil, or_false] at hl
      rcases hl with rfl | rfl <;> simpa using hb
    exact hb ▸ hm
  · refine .one (more := [_]) (.one (more := []) (f' := []) .none ?_) .idle
    have h := Life.append (read := (Body.de t mode 56 sampleShape).runSlice t std)
      (enc := fun b => (Body.toVec mode b).1) (file := []) (left := []) (vs := [])
      (new := [sampleBody, sampleBody])
      (written := ([sampleBody, sampleBody].map fun b => (Body.toVec mode b).1).flatten)
      (.wait (left := []) (by cases mode <;> cases std <;> rfl)) (List.prefix_refl _)
    simpa using h

end Dlhn.Props
