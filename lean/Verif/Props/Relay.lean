import Verif.Spec.Relay
import Verif.Proof.Relay
import Verif.Props.SelfLog
import Verif.Props.DeriveRead
/-!
# C144: intermediaries that know only the header

A header and values of a type `T` are written into a connection. On their way they pass
intermediaries that know no types (`Relays`, Spec/Relay.lean). In the end they are read by a type
`U` with the same header, for example `T`. `Mirrors T v b` says that the body `b` shows the value
`v`, and `SameContent U w b` that the value `w` says the same as the body `b`.
-/
namespace Dlhn.Props

open Spec hiding variantFields
open De Derive

variable {σ : Type} {step : RStep σ}

/-- The body `b` and its bytes `enc` stand for the value `v`. -/
structure StandsFor (t : Target) (mode : BuildMode) (size : Nat) (h : Header) (T : RTy)
    (v : Carrier T) (b : Body) (enc : List UInt8) : Prop where
  mirrors : Mirrors T v b
  writes : Body.toVec mode b = (enc, .ok ())
  first : ∀ more, (Body.de t mode size h).complete t ((ser mode T v).exec.1 ++ more) =
    some (.ok b, more)
  again : ∀ more, (Body.de t mode size h).complete t (enc ++ more) = some (.ok b, more)
  same : NoHashMap T → enc = (ser mode T v).exec.1
  nonempty : (ser mode T v).exec.1 ≠ [] → enc ≠ []

/-- Besides, `U` reads the bytes of `v` as `w` and those of `b` as `w'`. -/
structure ReadAs (t : Target) (mode : BuildMode) (size : Nat) (env : Env) (h : Header)
    (T U : RTy) (v : Carrier T) (b : Body) (enc : List UInt8) (w w' : Carrier U) : Prop
    extends StandsFor t mode size h T v b enc where
  content : SameContent U w b
  content' : SameContent U w' b
  direct : ∀ more, (deTy t mode env U).complete t ((ser mode T v).exec.1 ++ more) =
    some (.ok w, more)
  relayed : ∀ more, (deTy t mode env U).complete t (enc ++ more) = some (.ok w', more)

theorem complete_run {α : Type} {t : Target} {p : Prog DeErr α} {enc : List UInt8} {b : α}
    (hx : ∀ rest, Prog.run t p (enc ++ rest) = .ok (b, rest)) (more : List UInt8) :
    p.complete t (enc ++ more) = some (.ok b, more) := by
  obtain ⟨used, e1, e2, -⟩ := Prog.complete_split t (Prog.complete_of_rest t (hx [0]) (by simp))
  rw [← List.append_cancel_right e1] at e2
  exact e2 more

theorem _root_.Dlhn.Derive.Agrees.stands {t : Target} (hm : 4096 ≤ t.memLimit) {mode : BuildMode}
    {size : Nat} {T : RTy} {h : Header} {v : Carrier T} {N D : Prop} {b : Body} {bs : List UInt8}
    (hM : Mirrors T v b)
    (ha : Agrees t mode N D (ser mode T v) (Body.de t mode size h) (NoHashMap T) b bs) :
    StandsFor t mode size h T v b (bodyWire b) := by
  have hconf := Body.returns_conforms t mode size h .eof _ _ _ (ha.decodes .eof [])
  have hfit := (Body.returns_granted t mode size h .eof _ _ _ (ha.decodes .eof [])).fit ha.good.exist
  have hser : (ser mode T v).exec.1 = bs := by rw [ha.bytes]
  have hvec := C35_encoding t mode b ha.good.exist ha.good.dates
  have hag := fun rest => Body.de_wire t mode size hm h b hconf
    ⟨ha.good.exist, ha.good.clean, ha.good.dates, hfit⟩ .eof rest
  have hfirst := complete_run (p := Body.de t mode size h) fun rest => ha.decodes .eof rest
  have hagain := complete_run (p := Body.de t mode size h) hag
  refine ⟨hM, hvec, hser ▸ hfirst, hagain, fun hn => ?_, fun hne he => ?_⟩
  · have := ha.again hn
    rw [show (Body.ser mode b).exec = Body.toVec mode b from rfl, hvec] at this
    rw [hser]
    exact (Prod.mk.inj this).1
  · have e1 := hagain bs
    have e2 := hfirst []
    rw [he, List.nil_append] at e1
    rw [List.append_nil, e1] at e2
    simp only [Option.some.injEq, Prod.mk.injEq] at e2
    exact hne (hser ▸ e2.2)

theorem stands_for (t : Target) (hm : 4096 ≤ t.memLimit) (mode : BuildMode) (size : Nat)
    (T : RTy) (h : Header) (hT : Announces T h) (hp : Plain T) (v : Carrier T) (hr : Real t T v)
    (hd : DatesRebase mode T v) (hf : MemoryFits t size h T v) :
    ∃ b enc, StandsFor t mode size h T v b enc := by
  obtain ⟨hT, hc⟩ := (announces_iff T h).mp hT
  obtain ⟨b, bs, hM, ha⟩ := agree (N := False) (D := False) t mode size hm T h hT hc hp hf.1 v
    fun p hpp => ⟨hr p hpp, fun U vs he => hf.2 U vs (he ▸ hpp),
      fun hmode d he => hd hmode d (he ▸ hpp), nofun, nofun, nofun, nofun⟩
  exact ⟨b, _, ha.stands hm hM⟩

theorem read_as (t : Target) (hm : 4096 ≤ t.memLimit) (mode : BuildMode) (size : Nat)
    (env : Env) (ho : FairOrder env) (T U : RTy) (h : Header) (hT : Announces T h) (hp : Plain T)
    (hA : Announces U h) (hU : Receiver env U) (v : Carrier T)
    (hv : Sendable t mode size h T U v) :
    ∃ b enc w w', ReadAs t mode size env h T U v b enc w w' := by
  obtain ⟨hd, hc⟩ := (announces_iff T h).mp hT
  obtain ⟨b, bs, hM, ha⟩ := agree (N := ChecksTime U) (D := HasNumDecimal U) t mode size hm T h hd
    hc hp hv.memory.1 v fun p hpp => ⟨hv.real p hpp, fun U vs he => hv.memory.2 U vs (he ▸ hpp),
      fun hmode d he => hv.dates hmode d (he ▸ hpp), fun hN d he => (hv.times hN).1 d (he ▸ hpp),
      fun hN d he => (hv.times hN).2.1 d (he ▸ hpp), fun hN d he => (hv.times hN).2.2 d (he ▸ hpp),
      fun hD x he => hv.digits hD x (he ▸ hpp)⟩
  have hconf := Body.returns_conforms t mode size h .eof _ _ _ (ha.decodes .eof [])
  have hser : (ser mode T v).exec.1 = bs := by rw [ha.bytes]
  have hread := readPart_of hU.readable hU.plain hU.symmetric hU.defaulted
  have hdU := ((announces_iff U h).mp hA).1
  obtain ⟨w, h1, h2⟩ := takes_body (mode := mode) env ho hm U h hdU hread b hconf ha.good bs
    ha.spells
  obtain ⟨w', h3, h4⟩ := takes_body (mode := mode) env ho hm U h hdU hread b hconf ha.good
    (bodyWire b) (spells_wire b)
  exact ⟨b, bodyWire b, w, w', ha.stands hm hM, h1, h3, hser ▸ complete_run fun rest => h2 .eof rest,
    complete_run fun rest => h4 .eof rest⟩

/-- On what was written, or a beginning of it, the loop of an intermediary is that of a reader: it
never fails to write. -/
theorem _root_.Dlhn.RelaysBodies.reads {β : Type} (hl : step.Lawful) {t : Target}
    {mode : BuildMode} {size : Nat} {h : Header} (code : β → List UInt8) (body : β → Body)
    (hw : ∃ w b, code w ≠ [] ∧
      ∀ more, (Body.de t mode size h).complete t (code w ++ more) = some (.ok b, more)) {s s' : σ}
    {cs : List ReadRes} {out : List UInt8} (hr : RelaysBodies step t mode size h s cs out s')
    (sent : List β) (hc : ∀ v ∈ sent, ∀ more,
      (Body.de t mode size h).complete t (code v ++ more) = some (.ok (body v), more))
    (hok : ∀ v ∈ sent, (Body.toVec mode (body v)).2 = .ok ())
    (hh : handed cs <+: (sent.map code).flatten) :
    ∃ bodies e, ReadsOut step t (Body.de t mode size h) s cs bodies e s' ∧
      out = (bodies.map fun b => (Body.toVec mode b).1).flatten := by
  have hp := Body.tame_de t mode size h
  obtain ⟨w, b0, hw1, hw2⟩ := hw
  have hnil : ∀ {s s' : σ} {cs : List ReadRes} {b : Body}, handed cs = [] →
      ¬ Runs step t (Body.de t mode size h) s cs (.ok b) s' := by
    intro s s' cs b h0 hx
    rcases hx.written hl hp (hw2 []) ((before_prefix cs).trans (h0 ▸ List.nil_prefix)) with
      ⟨-, i, -⟩ | ⟨i, -⟩
    · exact hw1 (h0 ▸ i).symm
    · cases i
  induction hr generalizing sent with
  | stop hr => exact ⟨[], _, .stop hr, rfl⟩
  | @stuck s s' cs b bs e hr hb =>
    cases sent with
    | nil => exact (hnil (List.prefix_nil.mp hh) hr).elim
    | cons v sent =>
      rcases hr.written hl hp (hc v List.mem_cons_self _) ((before_prefix cs).trans hh) with
        ⟨i, -⟩ | ⟨i, -⟩
      · cases i
        have := hok v List.mem_cons_self
        rw [hb] at this; cases this
      · cases i
  | @next s s' s'' cs ds b bs out hr hb more ih =>
    rw [handed_append] at hh
    cases sent with
    | nil => exact (hnil (List.append_eq_nil_iff.mp (List.prefix_nil.mp hh)).1 hr).elim
    | cons v sent =>
      rcases hr.written hl hp (hc v List.mem_cons_self _)
        ((before_prefix cs).trans ((List.prefix_append _ _).trans hh)) with ⟨i1, i2, -⟩ | ⟨i, -⟩
      · rw [i2, List.map_cons, List.flatten_cons] at hh
        obtain ⟨bodies, e, h1, h2⟩ := ih sent (fun u hu => hc u (List.mem_cons_of_mem _ hu))
          (fun u hu => hok u (List.mem_cons_of_mem _ hu)) ((List.prefix_append_right_inj _).mp hh)
        exact ⟨_ :: bodies, e, .next hr h1, by rw [List.map_cons, List.flatten_cons, hb, h2]⟩
      · cases i

/-- One intermediary. `code` are the bytes of the values on the way in and `enc` those on the way
out. -/
theorem relay_step (hl : step.Lawful) (t : Target) (mode : BuildMode) (size hsize d : Nat)
    {h : Header} {hbs : List UInt8} (hvec : h.toVec = (hbs, .ok ()))
    (hrun : ∀ rest, Prog.run t (Header.deserialize hsize d) (hbs ++ rest) = .ok (h, rest))
    {β : Type} (code enc : β → List UInt8) (body : β → Body) (sent : List β)
    (hc : ∀ v ∈ sent, ∀ more,
      (Body.de t mode size h).complete t (code v ++ more) = some (.ok (body v), more))
    (henc : ∀ v ∈ sent, Body.toVec mode (body v) = (enc v, .ok ()))
    (he : ∃ v ∈ sent, code v ≠ []) {s s' : σ} {cs : List ReadRes} {out : List UInt8}
    (hr : Relays step t mode size hsize d s cs out s')
    (hh : handed cs <+: hbs ++ (sent.map code).flatten) :
    (out = [] ∧ handed cs <+: hbs ∧ handed cs ≠ hbs) ∨
    ∃ data vs left, handed cs = hbs ++ data ∧ CompleteIn code sent data vs left ∧
      out = hbs ++ (vs.map enc).flatten := by
  cases hr with
  | noHeader hr =>
    rcases header_written hl hrun hr hh with ⟨i, -⟩ | ⟨-, i2, i3, -⟩
    · cases i
    · exact .inl ⟨rfl, i2, i3⟩
  | stuck hr hw =>
    rcases header_written hl hrun hr hh with ⟨i, -⟩ | ⟨⟨e, i⟩, -⟩
    · cases i
      rw [hvec] at hw; cases hw
    · cases i
  | @header _ _ cs ds h' bs out hr hw more =>
    rw [handed_append] at hh ⊢
    rcases header_written hl hrun hr ((List.prefix_append _ _).trans hh) with ⟨i1, i2⟩ | ⟨⟨e, i⟩, -⟩
    · cases i1
      rw [hvec] at hw
      cases hw
      rw [i2, List.prefix_append_right_inj] at hh
      obtain ⟨w, hws, hne⟩ := he
      obtain ⟨bodies, e, k1, k2⟩ := more.reads hl code body ⟨w, _, hne, hc w hws⟩ sent hc
        (fun v hv => by rw [henc v hv]) hh
      obtain ⟨-, -, vs, left, k3, k4⟩ := k1.written hl (Body.tame_de t mode size _) code body
        ⟨w, _, hne, hc w hws⟩ sent hc hh
      refine .inr ⟨handed ds, vs, left, by rw [i2], k4, ?_⟩
      rw [k2, k3, List.map_map]
      congr 2
      exact List.map_congr_left fun v hv => by
        rw [Function.comp, henc v (k4.1.subset hv)]
    · cases i

/-- The header of the type, as it is written and read. -/
theorem header_facts {T : RTy} {h : Header} (hT : Announces T h) (t : Target) (hsize d : Nat)
    (hmem : 65535 * hsize ≤ t.memLimit) (hptr : 65535 * hsize ≤ t.isizeMax) (hdep : depth h ≤ d)
    {p : WProg IoErr} (hq : serializeHeader T = .ok p) : h.toVec = (p.exec.1, .ok ()) ∧
      ∀ rest, Prog.run t (Header.deserialize hsize d) (p.exec.1 ++ rest) = .ok (h, rest) := by
  obtain ⟨hd, hcnt⟩ := (announces_iff T h).mp hT
  obtain ⟨p', hq', hp, hok, hrun⟩ := C34_header T h hd hcnt t hsize d hmem hptr hdep
  rw [hq] at hq'
  cases hq'
  exact ⟨by rw [← hp, ← hok], hrun⟩

theorem pointwise_map {α β γ : Type} {R : α → β → Prop} {f : γ → α} {g : γ → β} {l : List γ}
    (h : ∀ x ∈ l, R (f x) (g x)) : Pointwise R (l.map f) (l.map g) := by
  induction l with
  | nil => exact trivial
  | cons x l ih =>
    exact ⟨h x List.mem_cons_self, ih fun y hy => h y (List.mem_cons_of_mem _ hy)⟩

/-! ## One intermediary -/

/-- Whatever part of the stream reaches the intermediary, and in whatever way: if the header is
not all there it writes nothing; if not it writes the header, byte by byte as it came, and then
for each value of which all bytes were delivered the bytes of a body that shows it. -/
theorem C144_relay (hl : step.Lawful) (t : Target) (hm : 4096 ≤ t.memLimit) (mode : BuildMode)
    (size hsize d : Nat) (hmem : 65535 * hsize ≤ t.memLimit) (hptr : 65535 * hsize ≤ t.isizeMax)
    (T : RTy) (h : Header) (hT : Announces T h) (hdep : depth h ≤ d) (hp : Plain T)
    (sent : List (Carrier T))
    (hv : ∀ v ∈ sent, Real t T v ∧ DatesRebase mode T v ∧ MemoryFits t size h T v)
    (he : ∃ v ∈ sent, (ser mode T v).exec.1 ≠ []) (p : WProg IoErr)
    (hq : serializeHeader T = .ok p) {s s' : σ} {cs : List ReadRes} {out : List UInt8}
    (hr : Relays step t mode size hsize d s cs out s')
    (hc : handed cs <+: p.exec.1 ++ (sent.map fun v => (ser mode T v).exec.1).flatten) :
    (out = [] ∧ handed cs <+: p.exec.1 ∧ handed cs ≠ p.exec.1) ∨
    ∃ data vs left bodies, handed cs = p.exec.1 ++ data ∧
      CompleteIn (fun v => (ser mode T v).exec.1) sent data vs left ∧
      Pointwise (Mirrors T) vs bodies ∧ (∀ b ∈ bodies, Body.validate h b = true) ∧
      out = p.exec.1 ++ (bodies.map fun b => (Body.toVec mode b).1).flatten := by
  obtain ⟨hvec, hrun⟩ := header_facts hT t hsize d hmem hptr hdep hq
  have hx : ∀ v, ∃ b, v ∈ sent → Mirrors T v b ∧ Body.validate h b = true ∧
      (Body.toVec mode b).2 = .ok () ∧
      ∀ more, (Body.de t mode size h).complete t ((ser mode T v).exec.1 ++ more) =
        some (.ok b, more) := by
    intro v
    by_cases hvs : v ∈ sent
    · obtain ⟨g1, g2, g3⟩ := hv v hvs
      obtain ⟨b, bs, e1, e2, e3, e4, -⟩ := C38_agree t hm mode size T h hT hp v g1 g2 g3
      obtain ⟨enc, e5, -⟩ := C63_shorter t mode size h .eof _ _ _ (e4 [])
      refine ⟨b, fun _ => ⟨e2, e3, by rw [e5], ?_⟩⟩
      rw [e1]
      exact complete_run e4
    · exact ⟨.unit, fun h' => absurd h' hvs⟩
  rcases relay_step hl t mode size hsize d hvec hrun _
    (fun v => (Body.toVec mode (hx v).choose).1) (fun v => (hx v).choose) sent
    (fun v h => ((hx v).choose_spec h).2.2.2)
    (fun v h => Prod.ext rfl ((hx v).choose_spec h).2.2.1) he hr hc with i | ⟨data, vs, left, i1, i2, i3⟩
  · exact .inl i
  · have hsub := i2.1.subset
    refine .inr ⟨data, vs, left, vs.map fun v => (hx v).choose, i1, i2, ?_, fun b hb => ?_, ?_⟩
    · have := pointwise_map (R := Mirrors T) (f := id) (g := fun v => (hx v).choose) (l := vs)
        fun v hv => ((hx v).choose_spec (hsub hv)).1
      rwa [List.map_id] at this
    · obtain ⟨v, hv, rfl⟩ := List.mem_map.mp hb
      exact ((hx v).choose_spec (hsub hv)).2.1
    · rw [i3, List.map_map]; rfl

/-! ## Any number of them -/

/-- What a receiver reads of a header and values, or of a beginning of that. -/
theorem typed_step {α β : Type} (hl : step.Lawful) {t : Target} {q : Prog DeErr α} (hq : Prog.Tame orRead q)
    (hsize d : Nat) {h : Header} {hbs : List UInt8}
    (hrun : ∀ rest, Prog.run t (Header.deserialize hsize d) (hbs ++ rest) = .ok (h, rest))
    (code : β → List UInt8) (back : β → α) (sent : List β)
    (hc : ∀ v ∈ sent, ∀ more, q.complete t (code v ++ more) = some (.ok (back v), more))
    (he : ∃ v ∈ sent, code v ≠ []) {s s' : σ} {cs : List ReadRes}
    {r : Except IoErr (Header × List α × DeErr)} (hr : ReadsTyped step t q hsize d s cs r s')
    (hh : handed cs <+: hbs ++ (sent.map code).flatten) :
    ((∃ e, r = .error e) ∧ handed cs <+: hbs ∧ handed cs ≠ hbs) ∨
    ∃ data vs left, r = .ok (h, vs.map back, .read) ∧ handed cs = hbs ++ data ∧
      CompleteIn code sent data vs left := by
  cases hr with
  | noHeader hr =>
    rcases header_written hl hrun hr hh with ⟨i, -⟩ | ⟨-, i2, i3, -⟩
    · cases i
    · exact .inl ⟨⟨_, rfl⟩, i2, i3⟩
  | @header _ _ cs ds h' ws e hr more =>
    rw [handed_append] at hh ⊢
    rcases header_written hl hrun hr ((List.prefix_append _ _).trans hh) with ⟨i1, i2⟩ | ⟨⟨e, i⟩, -⟩
    · cases i1
      rw [i2, List.prefix_append_right_inj] at hh
      obtain ⟨w, hws, hne⟩ := he
      obtain ⟨k1, -, vs, left, k3, k4⟩ := more.written hl hq code back ⟨w, _, hne, hc w hws⟩ sent hc hh
      exact .inr ⟨handed ds, vs, left, by rw [k1, k3], by rw [i2], k4⟩
    · cases i

theorem flatten_prefix {β : Type} {vs sent : List β} (code : β → List UInt8) (h : vs <+: sent) :
    (vs.map code).flatten <+: (sent.map code).flatten := by
  obtain ⟨more, rfl⟩ := h
  rw [List.map_append, List.flatten_append]
  exact List.prefix_append _ _

/-- What comes out of any number of intermediaries. -/
theorem hops_step (t : Target) (mode : BuildMode) (size hsize d : Nat) {T : RTy} {h : Header}
    {hbs : List UInt8} (hvec : h.toVec = (hbs, .ok ()))
    (hrun : ∀ rest, Prog.run t (Header.deserialize hsize d) (hbs ++ rest) = .ok (h, rest))
    (sent : List (Carrier T)) (body : Carrier T → Body) (enc : Carrier T → List UInt8)
    (hs : ∀ v ∈ sent, StandsFor t mode size h T v (body v) (enc v))
    (he : ∃ v ∈ sent, (ser mode T v).exec.1 ≠ []) :
    (∀ out, Hops Broken t mode size hsize d
        (hbs ++ (sent.map fun v => (ser mode T v).exec.1).flatten) out →
      out = hbs ++ (sent.map fun v => (ser mode T v).exec.1).flatten ∨ out = [] ∨
      ∃ vs, vs <+: sent ∧ out = hbs ++ (vs.map enc).flatten) ∧
    ∀ (code : Carrier T → List UInt8), (∀ v ∈ sent, ∀ more,
        (Body.de t mode size h).complete t (code v ++ more) = some (.ok (body v), more)) →
      (∃ v ∈ sent, code v ≠ []) → ∀ out, Hops Whole t mode size hsize d
        (hbs ++ (sent.map code).flatten) out →
      out = hbs ++ (sent.map code).flatten ∨ out = hbs ++ (sent.map enc).flatten := by
  obtain ⟨v0, hv0, hne0⟩ := he
  have hnenc : enc v0 ≠ [] := (hs v0 hv0).nonempty hne0
  refine ⟨fun out hops => ?_, fun code hcode hne out hops => ?_⟩
  · induction hops with
    | none => exact .inl rfl
    | @one mid out before σ step s s' cs lawful link hop ih =>
      right
      have h1 : handed cs <+: hbs ++ (sent.map fun v => (ser mode T v).exec.1).flatten ∨
          handed cs <+: hbs ++ (sent.map enc).flatten := by
        rcases ih with rfl | rfl | ⟨vs, i1, rfl⟩
        · exact .inl link
        · exact .inl (List.IsPrefix.trans link List.nil_prefix)
        · refine .inr (List.IsPrefix.trans link ?_)
          rw [List.prefix_append_right_inj]
          exact flatten_prefix _ i1
      rcases h1 with h1 | h1
      · rcases relay_step lawful t mode size hsize d hvec hrun _ enc body sent
          (fun v h => (hs v h).first) (fun v h => (hs v h).writes) ⟨v0, hv0, hne0⟩ hop h1 with
            ⟨i, -⟩ | ⟨data, vs, left, i1, i2, i3⟩
        · exact .inl i
        · exact .inr ⟨vs, i2.1, i3⟩
      · rcases relay_step lawful t mode size hsize d hvec hrun _ enc body sent
          (fun v h => (hs v h).again) (fun v h => (hs v h).writes) ⟨v0, hv0, hnenc⟩ hop h1 with
            ⟨i, -⟩ | ⟨data, vs, left, i1, i2, i3⟩
        · exact .inl i
        · exact .inr ⟨vs, i2.1, i3⟩
  · induction hops with
    | none => exact .inl rfl
    | @one mid out before σ step s s' cs lawful link hop ih =>
      right
      have key : ∀ code : Carrier T → List UInt8,
          (∀ v ∈ sent, ∀ more, (Body.de t mode size h).complete t (code v ++ more) =
            some (.ok (body v), more)) → (∃ v ∈ sent, code v ≠ []) →
          handed cs = hbs ++ (sent.map code).flatten →
          out = hbs ++ (sent.map enc).flatten := by
        intro code hc hne hh
        rcases relay_step lawful t mode size hsize d hvec hrun code enc body sent hc
          (fun v h => (hs v h).writes) hne hop (hh ▸ List.prefix_refl _) with
            ⟨-, i1, i2⟩ | ⟨data, vs, left, i1, i2, i3⟩
        · exact absurd (i1.eq_of_length_le (by rw [hh]; simp)) i2
        · rw [i1] at hh
          obtain ⟨rfl, -⟩ := i2.all (List.append_cancel_left hh)
          exact i3
      have hl : handed cs = mid := link
      rcases ih with rfl | rfl
      · exact key code hcode hne hl
      · exact key enc (fun v h => (hs v h).again) ⟨v0, hv0, hnenc⟩ hl

/-- The bodies that stand for values, all at once. -/
theorem exists_bodies (t : Target) (hm : 4096 ≤ t.memLimit) (mode : BuildMode) (size : Nat)
    (T : RTy) (h : Header) (hT : Announces T h) (hp : Plain T) (sent : List (Carrier T))
    (hv : ∀ v ∈ sent, Real t T v ∧ DatesRebase mode T v ∧ MemoryFits t size h T v) :
    ∃ (body : Carrier T → Body) (enc : Carrier T → List UInt8),
      ∀ v ∈ sent, StandsFor t mode size h T v (body v) (enc v) := by
  have hx : ∀ v, ∃ x : Body × List UInt8, v ∈ sent → StandsFor t mode size h T v x.1 x.2 := by
    intro v
    by_cases hvs : v ∈ sent
    · obtain ⟨g1, g2, g3⟩ := hv v hvs
      obtain ⟨b, enc, hs⟩ := stands_for t hm mode size T h hT hp v g1 g2 g3
      exact ⟨(b, enc), fun _ => hs⟩
    · exact ⟨(.unit, []), fun h' => absurd h' hvs⟩
  exact ⟨fun v => (hx v).choose.1, fun v => (hx v).choose.2, fun v hv => (hx v).choose_spec hv⟩

/-- If no `HashMap` is involved, intermediaries change no byte: what comes out of any number of
them is what was sent, and a beginning of it if connections break. -/
theorem C144_unchanged (t : Target) (hm : 4096 ≤ t.memLimit) (mode : BuildMode)
    (size hsize d : Nat) (hmem : 65535 * hsize ≤ t.memLimit) (hptr : 65535 * hsize ≤ t.isizeMax)
    (T : RTy) (h : Header) (hT : Announces T h) (hdep : depth h ≤ d) (hp : Plain T)
    (hn : NoHashMap T) (sent : List (Carrier T))
    (hv : ∀ v ∈ sent, Real t T v ∧ DatesRebase mode T v ∧ MemoryFits t size h T v)
    (he : ∃ v ∈ sent, (ser mode T v).exec.1 ≠ []) (p : WProg IoErr)
    (hq : serializeHeader T = .ok p) (data : List UInt8)
    (hdata : data = p.exec.1 ++ (sent.map fun v => (ser mode T v).exec.1).flatten) :
    (∀ out, Hops Whole t mode size hsize d data out → out = data) ∧
    ∀ out, Hops Broken t mode size hsize d data out → out <+: data := by
  subst hdata
  obtain ⟨hvec, hrun⟩ := header_facts hT t hsize d hmem hptr hdep hq
  obtain ⟨body, enc, hs⟩ := exists_bodies t hm mode size T h hT hp sent hv
  obtain ⟨h1, h2⟩ := hops_step t mode size hsize d hvec hrun sent body enc hs he
  have hsame : ∀ {vs : List (Carrier T)}, vs <+: sent →
      vs.map enc = vs.map fun v => (ser mode T v).exec.1 := fun hvs =>
    List.map_congr_left fun v hv => (hs v (hvs.subset hv)).same hn
  refine ⟨fun out hops => ?_, fun out hops => ?_⟩
  · rcases h2 _ (fun v h => (hs v h).first) he out hops with rfl | rfl
    · rfl
    · rw [hsame (List.prefix_refl _)]
  · rcases h1 out hops with rfl | rfl | ⟨vs, hvs, rfl⟩
    · exact List.prefix_refl _
    · exact List.nil_prefix
    · rw [hsame hvs, List.prefix_append_right_inj]
      exact flatten_prefix _ hvs

/-- If a `HashMap` is involved the first intermediary may change the order of its entries. What
it writes is not changed by the intermediaries behind it. -/
theorem C144_settled (hl : step.Lawful) (t : Target) (hm : 4096 ≤ t.memLimit) (mode : BuildMode)
    (size hsize d : Nat) (hmem : 65535 * hsize ≤ t.memLimit) (hptr : 65535 * hsize ≤ t.isizeMax)
    (T : RTy) (h : Header) (hT : Announces T h) (hdep : depth h ≤ d) (hp : Plain T)
    (sent : List (Carrier T))
    (hv : ∀ v ∈ sent, Real t T v ∧ DatesRebase mode T v ∧ MemoryFits t size h T v)
    (he : ∃ v ∈ sent, (ser mode T v).exec.1 ≠ []) (p : WProg IoErr)
    (hq : serializeHeader T = .ok p) {s s' : σ} {cs : List ReadRes} {mid : List UInt8}
    (hr : Relays step t mode size hsize d s cs mid s')
    (hc : handed cs = p.exec.1 ++ (sent.map fun v => (ser mode T v).exec.1).flatten) :
    ∀ out, Hops Whole t mode size hsize d mid out → out = mid := by
  obtain ⟨hvec, hrun⟩ := header_facts hT t hsize d hmem hptr hdep hq
  obtain ⟨body, enc, hs⟩ := exists_bodies t hm mode size T h hT hp sent hv
  obtain ⟨-, h2⟩ := hops_step t mode size hsize d hvec hrun sent body enc hs he
  have hmid : mid = p.exec.1 ++ (sent.map enc).flatten := by
    rcases relay_step hl t mode size hsize d hvec hrun _ enc body sent (fun v h => (hs v h).first)
      (fun v h => (hs v h).writes) he hr (hc ▸ List.prefix_refl _) with
        ⟨-, i1, i2⟩ | ⟨data, vs, left, i1, i2, i3⟩
    · exact absurd (i1.eq_of_length_le (by rw [hc]; simp)) i2
    · rw [i1] at hc
      obtain ⟨rfl, -⟩ := i2.all (List.append_cancel_left hc)
      exact i3
  subst hmid
  intro out hops
  obtain ⟨v0, hv0, hne0⟩ := he
  rcases h2 enc (fun v h => (hs v h).again) ⟨v0, hv0, (hs v0 hv0).nonempty hne0⟩ out hops with h | h <;>
    exact h

section
variable (t : Target) (hm : 4096 ≤ t.memLimit) (mode : BuildMode) (env : Env) (ho : FairOrder env)
  (size hsize d : Nat) (hmem : 65535 * hsize ≤ t.memLimit) (hptr : 65535 * hsize ≤ t.isizeMax)
  (T U : RTy) (h : Header) (hT : Announces T h) (hdep : depth h ≤ d) (hp : Plain T)
  (hA : Announces U h) (hU : Receiver env U) (sent : List (Carrier T))
  (hv : ∀ v ∈ sent, Sendable t mode size h T U v)
  (he : ∃ v ∈ sent, (ser mode T v).exec.1 ≠ []) (p : WProg IoErr) (hq : serializeHeader T = .ok p)
include hm ho hmem hptr hT hdep hp hA hU hv he hq

theorem hops_out : ∃ (body : Carrier T → Body) (enc : Carrier T → List UInt8)
    (w w' : Carrier T → Carrier U),
    (∀ v ∈ sent, ReadAs t mode size env h T U v (body v) (enc v) (w v) (w' v)) ∧
    (∀ out, Hops Broken t mode size hsize d
        (p.exec.1 ++ (sent.map fun v => (ser mode T v).exec.1).flatten) out →
      out = p.exec.1 ++ (sent.map fun v => (ser mode T v).exec.1).flatten ∨ out = [] ∨
      ∃ vs, vs <+: sent ∧ out = p.exec.1 ++ (vs.map enc).flatten) ∧
    ∀ out, Hops Whole t mode size hsize d
        (p.exec.1 ++ (sent.map fun v => (ser mode T v).exec.1).flatten) out →
      out = p.exec.1 ++ (sent.map fun v => (ser mode T v).exec.1).flatten ∨
      out = p.exec.1 ++ (sent.map enc).flatten := by
  obtain ⟨hvec, hrun⟩ := header_facts hT t hsize d hmem hptr hdep hq
  obtain ⟨v0, hv0, hne0⟩ := he
  obtain ⟨b0, enc0, w0, w0', -⟩ := read_as t hm mode size env ho T U h hT hp hA hU v0 (hv v0 hv0)
  have hx : ∀ v, ∃ x : Body × List UInt8 × Carrier U × Carrier U, v ∈ sent →
      ReadAs t mode size env h T U v x.1 x.2.1 x.2.2.1 x.2.2.2 := by
    intro v
    by_cases hvs : v ∈ sent
    · obtain ⟨b, enc, w, w', hs⟩ := read_as t hm mode size env ho T U h hT hp hA hU v (hv v hvs)
      exact ⟨(b, enc, w, w'), fun _ => hs⟩
    · exact ⟨(b0, enc0, w0, w0'), fun h' => absurd h' hvs⟩
  have hs := fun v hv => (hx v).choose_spec hv
  obtain ⟨h1, h2⟩ := hops_step t mode size hsize d hvec hrun sent (fun v => (hx v).choose.1)
    (fun v => (hx v).choose.2.1) (fun v hv => (hs v hv).toStandsFor) ⟨v0, hv0, hne0⟩
  exact ⟨fun v => (hx v).choose.1, fun v => (hx v).choose.2.1, fun v => (hx v).choose.2.2.1,
    fun v => (hx v).choose.2.2.2, hs, h1, h2 _ (fun v h => (hs v h).first) ⟨v0, hv0, hne0⟩⟩

/-- If no connection loses anything, the receiver gets all values, in order, after any number of
intermediaries: for each value that was sent there is a body that shows it, and the value that is
received says the same as this body. -/
theorem C144_lossless {out : List UInt8} (hops : Hops Whole t mode size hsize d
      (p.exec.1 ++ (sent.map fun v => (ser mode T v).exec.1).flatten) out)
    (hl : step.Lawful) {s s' : σ} {cs : List ReadRes}
    {r : Except IoErr (Header × List (Carrier U) × DeErr)}
    (hr : ReadsTyped step t (deTy t mode env U) hsize d s cs r s') (hc : handed cs = out) :
    ∃ ws, r = .ok (h, ws, .read) ∧
      Pointwise (fun v w => ∃ b, Mirrors T v b ∧ SameContent U w b) sent ws := by
  obtain ⟨-, hrun⟩ := header_facts hT t hsize d hmem hptr hdep hq
  obtain ⟨body, enc, w, w', hs, -, hw⟩ := hops_out t hm mode env ho size hsize d hmem hptr T U h hT
    hdep hp hA hU sent hv he p hq
  obtain ⟨v0, hv0, hne0⟩ := he
  have key : ∀ (code : Carrier T → List UInt8) (back : Carrier T → Carrier U),
      (∀ v ∈ sent, ∀ more, (deTy t mode env U).complete t (code v ++ more) =
        some (.ok (back v), more)) → (∀ v ∈ sent, SameContent U (back v) (body v)) →
      code v0 ≠ [] → handed cs = p.exec.1 ++ (sent.map code).flatten →
      ∃ ws, r = .ok (h, ws, .read) ∧
        Pointwise (fun v w => ∃ b, Mirrors T v b ∧ SameContent U w b) sent ws := by
    intro code back h1 h2 h3 h4
    rcases typed_step hl (tame_deTy t mode env U) hsize d hrun code back sent h1 ⟨v0, hv0, h3⟩ hr
      (h4 ▸ List.prefix_refl _) with ⟨-, i1, i2⟩ | ⟨data, vs, left, i1, i2, i3⟩
    · exact absurd (i1.eq_of_length_le (by rw [h4]; simp)) i2
    · rw [i2] at h4
      obtain ⟨rfl, -⟩ := i3.all (List.append_cancel_left h4)
      refine ⟨_, i1, ?_⟩
      have := pointwise_map (R := fun v w => ∃ b, Mirrors T v b ∧ SameContent U w b) (f := id)
        (g := back) (l := vs) fun v hv => ⟨body v, (hs v hv).mirrors, h2 v hv⟩
      rwa [List.map_id] at this
  rcases hw out hops with rfl | rfl
  · exact key _ w (fun v h => (hs v h).direct) (fun v h => (hs v h).content) hne0 hc
  · exact key _ w' (fun v h => (hs v h).relayed) (fun v h => (hs v h).content')
      ((hs v0 hv0).nonempty hne0) hc

/-- If connections break, or intermediaries die, the receiver gets a beginning of the sequence of
values, each of them whole, and then `Err(Read)`; or not even the header. -/
theorem C144_broken {out : List UInt8} (hops : Hops Broken t mode size hsize d
      (p.exec.1 ++ (sent.map fun v => (ser mode T v).exec.1).flatten) out)
    (hl : step.Lawful) {s s' : σ} {cs : List ReadRes}
    {r : Except IoErr (Header × List (Carrier U) × DeErr)}
    (hr : ReadsTyped step t (deTy t mode env U) hsize d s cs r s') (hc : handed cs <+: out) :
    ((∃ e, r = .error e) ∧ handed cs <+: p.exec.1 ∧ handed cs ≠ p.exec.1) ∨
    ∃ vs ws, r = .ok (h, ws, .read) ∧ vs <+: sent ∧
      Pointwise (fun v w => ∃ b, Mirrors T v b ∧ SameContent U w b) vs ws := by
  obtain ⟨-, hrun⟩ := header_facts hT t hsize d hmem hptr hdep hq
  obtain ⟨body, enc, w, w', hs, hb, -⟩ := hops_out t hm mode env ho size hsize d hmem hptr T U h hT
    hdep hp hA hU sent hv he p hq
  obtain ⟨v0, hv0, hne0⟩ := he
  have key : ∀ (code : Carrier T → List UInt8) (back : Carrier T → Carrier U),
      (∀ v ∈ sent, ∀ more, (deTy t mode env U).complete t (code v ++ more) =
        some (.ok (back v), more)) → (∀ v ∈ sent, SameContent U (back v) (body v)) →
      code v0 ≠ [] → handed cs <+: p.exec.1 ++ (sent.map code).flatten →
      ((∃ e, r = .error e) ∧ handed cs <+: p.exec.1 ∧ handed cs ≠ p.exec.1) ∨
      ∃ vs ws, r = .ok (h, ws, .read) ∧ vs <+: sent ∧
        Pointwise (fun v w => ∃ b, Mirrors T v b ∧ SameContent U w b) vs ws := by
    intro code back h1 h2 h3 h4
    rcases typed_step hl (tame_deTy t mode env U) hsize d hrun code back sent h1 ⟨v0, hv0, h3⟩ hr h4
      with i | ⟨data, vs, left, i1, i2, i3⟩
    · exact .inl i
    · refine .inr ⟨vs, _, i1, i3.1, ?_⟩
      have := pointwise_map (R := fun v w => ∃ b, Mirrors T v b ∧ SameContent U w b) (f := id)
        (g := back) (l := vs) fun v hv => ⟨body v, (hs v (i3.1.subset hv)).mirrors,
          h2 v (i3.1.subset hv)⟩
      rwa [List.map_id] at this
  rcases hb out hops with rfl | rfl | ⟨vs, hvs, rfl⟩
  · exact key _ w (fun v h => (hs v h).direct) (fun v h => (hs v h).content) hne0 hc
  · exact key _ w (fun v h => (hs v h).direct) (fun v h => (hs v h).content) hne0
      (List.IsPrefix.trans hc List.nil_prefix)
  · refine key _ w' (fun v h => (hs v h).relayed) (fun v h => (hs v h).content')
      ((hs v0 hv0).nonempty hne0) (List.IsPrefix.trans hc ?_)
    rw [List.prefix_append_right_inj]
    exact flatten_prefix _ hvs

end

/-! ## Intermediaries end, and what they can change -/

theorem _root_.Dlhn.ReadsOut.relays {t : Target} {mode : BuildMode} {size : Nat} {h : Header}
    {s s' : σ} {cs : List ReadRes} {bodies : List Body} {e : DeErr}
    (hr : ReadsOut step t (Body.de t mode size h) s cs bodies e s')
    (hok : ∀ b ∈ bodies, (Body.toVec mode b).2 = .ok ()) :
    RelaysBodies step t mode size h s cs
      (bodies.map fun b => (Body.toVec mode b).1).flatten s' := by
  induction hr with
  | stop hr => exact .stop hr
  | next hr more ih =>
    rw [List.map_cons, List.flatten_cons]
    exact .next hr (Prod.ext rfl (hok _ List.mem_cons_self))
      (ih fun b hb => hok b (List.mem_cons_of_mem _ hb))

theorem relay_file (t : Target) (mode : BuildMode) (size hsize d : Nat)
    {h : Header} {hbs : List UInt8} (hvec : h.toVec = (hbs, .ok ()))
    (hrun : ∀ rest, Prog.run t (Header.deserialize hsize d) (hbs ++ rest) = .ok (h, rest))
    {β : Type} (code enc : β → List UInt8) (body : β → Body) (sent : List β)
    (hc : ∀ v ∈ sent, ∀ more,
      (Body.de t mode size h).complete t (code v ++ more) = some (.ok (body v), more))
    (henc : ∀ v ∈ sent, Body.toVec mode (body v) = (enc v, .ok ()))
    (he : ∃ v ∈ sent, code v ≠ []) (data : List UInt8)
    (hdata : data <+: hbs ++ (sent.map code).flatten) :
    ∃ cs out, Relays fileStep t mode size hsize d data cs out [] ∧ handed cs = data := by
  obtain ⟨cs, o, s', hr⟩ := Runs.exists fileStep_lawful fileStep_live t
    (Header.deserialize hsize d) data
  obtain ⟨f1, f2⟩ := hr.file
  rcases header_written fileStep_lawful hrun hr (List.IsPrefix.trans ⟨s', f1.symm⟩ hdata) with
    ⟨rfl, i2⟩ | ⟨⟨e, rfl⟩, -, -, c, i4, i5⟩
  · obtain ⟨v0, hv0, hne0⟩ := he
    have hpre : s' <+: (sent.map code).flatten := by
      rwa [f1, i2, List.prefix_append_right_inj] at hdata
    obtain ⟨ds, bodies, e, s'', hb⟩ := file_reads t (Body.tame_de t mode size h)
      code body hne0 (hc v0 hv0) sent hc s' hpre
    obtain ⟨g1, g2⟩ := hb.file
    obtain ⟨-, k2, vs, left, k3, k4⟩ := hb.written fileStep_lawful (Body.tame_de t mode size h)
      code body ⟨v0, _, hne0, hc v0 hv0⟩ sent hc (List.IsPrefix.trans ⟨s'', g1.symm⟩ hpre)
    have hs'' := g2 k2
    subst hs''
    refine ⟨_, _, .header hr hvec (hb.relays fun b hb => ?_), ?_⟩
    · rw [k3] at hb
      obtain ⟨v, hv, rfl⟩ := List.mem_map.mp hb
      rw [henc v (k4.1.subset hv)]
    · rw [handed_append]
      rw [List.append_nil] at g1
      rw [← g1, ← f1]
  · have hs' := f2 c (List.mem_of_getLast? i4) i5
    subst hs'
    exact ⟨cs, [], .noHeader hr, by rw [List.append_nil] at f1; exact f1.symm⟩

/-- An intermediary that reads from a file what was sent, or what other intermediaries made of it,
or a beginning of that, comes to an end, and has then read all of it. -/
theorem C144_ends (t : Target) (hm : 4096 ≤ t.memLimit) (mode : BuildMode)
    (size hsize d : Nat) (hmem : 65535 * hsize ≤ t.memLimit) (hptr : 65535 * hsize ≤ t.isizeMax)
    (T : RTy) (h : Header) (hT : Announces T h) (hdep : depth h ≤ d) (hp : Plain T)
    (sent : List (Carrier T))
    (hv : ∀ v ∈ sent, Real t T v ∧ DatesRebase mode T v ∧ MemoryFits t size h T v)
    (he : ∃ v ∈ sent, (ser mode T v).exec.1 ≠ []) (p : WProg IoErr)
    (hq : serializeHeader T = .ok p) {mid : List UInt8} (hops : Hops Broken t mode size hsize d
      (p.exec.1 ++ (sent.map fun v => (ser mode T v).exec.1).flatten) mid)
    (data : List UInt8) (hdata : data <+: mid) :
    ∃ cs out, Relays fileStep t mode size hsize d data cs out [] ∧ handed cs = data := by
  obtain ⟨hvec, hrun⟩ := header_facts hT t hsize d hmem hptr hdep hq
  obtain ⟨body, enc, hs⟩ := exists_bodies t hm mode size T h hT hp sent hv
  obtain ⟨h1, -⟩ := hops_step t mode size hsize d hvec hrun sent body enc hs he
  have first := fun hd => relay_file t mode size hsize d hvec hrun _ enc body sent
    (fun v h => (hs v h).first) (fun v h => (hs v h).writes) he data hd
  rcases h1 mid hops with rfl | rfl | ⟨vs, hvs, rfl⟩
  · exact first hdata
  · exact first (hdata.trans List.nil_prefix)
  · obtain ⟨v0, hv0, hne0⟩ := he
    refine relay_file t mode size hsize d hvec hrun enc enc body sent (fun v h => (hs v h).again)
      (fun v h => (hs v h).writes) ⟨v0, hv0, (hs v0 hv0).nonempty hne0⟩ data (hdata.trans ?_)
    rw [List.prefix_append_right_inj]
    exact flatten_prefix _ hvs

/-- With a `HashMap` the bytes may change: an intermediary puts the entries in key order. -/
theorem C144_reordered (t : Target) (hm : 4096 ≤ t.memLimit) (mode : BuildMode) (size : Nat) :
    ∃ (v : Carrier (.hashMap .u8)) (p : WProg IoErr) (cs : List ReadRes) (out : List UInt8),
      Real t (.hashMap .u8) v ∧ serializeHeader (.hashMap .u8) = .ok p ∧
      Relays fileStep t mode size 0 9 (p.exec.1 ++ (ser mode (.hashMap .u8) v).exec.1) cs out [] ∧
      out ≠ p.exec.1 ++ (ser mode (.hashMap .u8) v).exec.1 := by
  obtain ⟨hA, v, b, bs, hr, e1, -, e3, e4⟩ := C38_hashmap t hm mode size
  have hp : Plain (.hashMap .u8) := C38_builtin _ (by simp [BuiltIn, typeParts, BuiltInPart])
  have hd : DatesRebase mode (.hashMap .u8) v := by
    intro _ d hd
    simp [valueParts] at hd
    obtain ⟨l, ⟨a, b, -, rfl⟩, hd⟩ := hd
    simp at hd
  have hf : MemoryFits t size (.map .uint8) (.hashMap .u8) v :=
    ⟨by simp [headerParts], by
      intro U vs hU
      simp [valueParts] at hU
      obtain ⟨l, ⟨a, b, -, rfl⟩, hU⟩ := hU
      simp at hU⟩
  obtain ⟨p, hq⟩ := hA.1
  have hser : (ser mode (.hashMap .u8) v).exec.1 = bs := by rw [e1]
  have hne : bs ≠ [] := by
    intro h0
    have h1 := e3 []
    rw [h0] at h1
    have h2 : Prog.run t (Body.de t mode size (.map .uint8)) [] = .err .read := by
      rw [Body.de]; rfl
    rw [List.append_nil] at h1
    rw [h2] at h1
    cases h1
  have hdep : depth (.map .uint8) ≤ 9 := by decide
  have hvs : ∀ u ∈ [v], Real t (.hashMap .u8) u ∧ DatesRebase mode (.hashMap .u8) u ∧
      MemoryFits t size (.map .uint8) (.hashMap .u8) u := fun u hu => by
    rw [List.mem_singleton.mp hu]; exact ⟨hr, hd, hf⟩
  have hex : ∃ u ∈ [v], (ser mode (.hashMap .u8) u).exec.1 ≠ [] :=
    ⟨v, List.mem_singleton.mpr rfl, hser ▸ hne⟩
  obtain ⟨cs, out, h1, h2⟩ := C144_ends t hm mode size 0 9 (by simp) (by simp) _ _ hA hdep hp [v]
    hvs hex p hq.1 .none (p.exec.1 ++ (ser mode (.hashMap .u8) v).exec.1) (by simp)
  refine ⟨v, p, cs, out, hr, hq.1, h1, fun heq => ?_⟩
  obtain ⟨hvec, hrun⟩ := header_facts hA t 0 9 (by simp) (by simp) hdep hq.1
  rcases relay_step fileStep_lawful t mode size 0 9 hvec hrun
    (fun u => (ser mode (.hashMap .u8) u).exec.1) (fun _ => (Body.toVec mode b).1) (fun _ => b) [v]
    (fun u hu => by rw [List.mem_singleton.mp hu, hser]; exact complete_run e3)
    (fun u hu => by
      obtain ⟨enc, i, -⟩ := C63_shorter t mode size (.map .uint8) .eof _ _ _ (e3 [])
      rw [i]) hex h1 (by rw [h2]; simp) with ⟨-, i1, i2⟩ | ⟨data, vs, left, i1, i2, i3⟩
  · exact absurd (i1.eq_of_length_le (by rw [h2]; simp)) i2
  · rw [h2] at i1
    have hdata := List.append_cancel_left i1
    obtain ⟨rfl, -⟩ := i2.all (by rw [← hdata]; simp)
    rw [i3] at heq
    have := List.append_cancel_left heq
    obtain ⟨enc, i, -⟩ := C63_shorter t mode size (.map .uint8) .eof _ _ _ (e3 [])
    rw [hser] at this
    refine e4 (Prod.ext (by simpa using this) (by rw [i]))

/-- On data that no serializer wrote an intermediary can change the value: these three bytes are
`Off` for the type. An intermediary reads and writes variant 1, and that is `On` for the type. -/
theorem C144_foreign (t : Target) (mode : BuildMode) (size : Nat) (env : Env) :
    Announces switchTy (.enum [.unit, .unit]) ∧
    Prog.run t (deTy t mode env switchTy) [0xC1, 0, 0] = .ok (.inl (), []) ∧
    ∃ b, Prog.run t (Body.de t mode size (.enum [.unit, .unit])) [0xC1, 0, 0] = .ok (b, []) ∧
      Body.toVec mode b = ([1], .ok ()) ∧
      Prog.run t (deTy t mode env switchTy) [1] = .ok (.inr (.inl ()), []) := by
  obtain ⟨h1, h2, h3⟩ := C78_differ t mode size env
  exact ⟨h1, h2, _, h3, by cases mode <;> rfl, rfl⟩

/-! ## The hypotheses are met -/

theorem ledger_sendable (t : Target) (hm : 4096 ≤ t.memLimit) (mode : BuildMode) (env : Env) :
    Receiver env mirrorTy ∧ Sendable t mode 1 ledgerHeader ledgerTy mirrorTy ledgerVal ∧
    (ser mode ledgerTy ledgerVal).exec.1 ≠ [] := by
  obtain ⟨-, h2, h3, h4, h5, h6, h7⟩ := mirror_meets env
  obtain ⟨-, g2, g3⟩ := ledger_real t mode
  have k1 : ¬ Skipped [] := by decide
  refine ⟨⟨h2, h3, h4, h5⟩, ⟨g2, g3, ⟨fun hs hh => ?_, fun U vs hU => ?_⟩, fun h => absurd h h6,
    fun h => absurd h h7⟩, by cases mode <;> decide +kernel⟩
  · have : hs.length = 2 := by
      simp [ledgerHeader, headerParts, headersParts] at hh
      rw [hh]; rfl
    rw [this]
    have h1 : ¬ t.isizeMax < 2 := by rw [Target.isizeMax]; cases t.ptr <;> decide
    have h2 : ¬ t.memLimit < 2 := by omega
    simp [Target.allocate, h1, h2]
  · simp [ledgerTy, ledgerVal, valueParts, valuePartsFields, k1] at hU

/-- Two values with `HashMap`s, two intermediaries that read from files, and a receiver that uses
another type with the same header. -/
example (t : Target) (hm : 65535 ≤ t.memLimit) (mode : BuildMode) (env : Env) (ho : FairOrder env) :
    ∃ p cs mid ds out es ws s', serializeHeader ledgerTy = .ok p ∧
      let enc := (ser mode ledgerTy ledgerVal).exec.1
      Relays fileStep t mode 1 0 9 (p.exec.1 ++ (enc ++ enc)) cs mid [] ∧
      Relays fileStep t mode 1 0 9 mid ds out [] ∧
      Hops Whole t mode 1 0 9 (p.exec.1 ++ (enc ++ enc)) out ∧
      ReadsTyped fileStep t (deTy t mode env mirrorTy) 0 9 out es (.ok (ledgerHeader, ws, .read)) s' ∧
      Pointwise (fun v w => ∃ b, Mirrors ledgerTy v b ∧ SameContent mirrorTy w b)
        [ledgerVal, ledgerVal] ws := by
  have hm' : 4096 ≤ t.memLimit := by omega
  obtain ⟨h1, h2, h3⟩ := ledger_sendable t hm' mode env
  have hA := (ledger_meets env).1
  have hp := (ledger_real t mode).1
  have hdep : depth ledgerHeader ≤ 9 := by decide
  obtain ⟨p, hq, -⟩ := hA.1
  have hv : ∀ v ∈ [ledgerVal, ledgerVal], Sendable t mode 1 ledgerHeader ledgerTy mirrorTy v := by
    intro v hv
    have : v = ledgerVal := by simpa using hv
    exact this ▸ h2
  have hv' : ∀ v ∈ [ledgerVal, ledgerVal], Real t ledgerTy v ∧ DatesRebase mode ledgerTy v ∧
      MemoryFits t 1 ledgerHeader ledgerTy v := fun v h => ⟨(hv v h).real, (hv v h).dates, (hv v h).memory⟩
  have he : ∃ v ∈ [ledgerVal, ledgerVal], (ser mode ledgerTy v).exec.1 ≠ [] :=
    ⟨ledgerVal, List.mem_cons_self, h3⟩
  have hdata : p.exec.1 ++ ((ser mode ledgerTy ledgerVal).exec.1 ++ (ser mode ledgerTy ledgerVal).exec.1) =
      p.exec.1 ++ ([ledgerVal, ledgerVal].map fun v => (ser mode ledgerTy v).exec.1).flatten := by simp
  obtain ⟨cs, mid, r1, e1⟩ := C144_ends t hm' mode 1 0 9 (by simp) (by simp) _ _ hA hdep hp _ hv' he p
    hq .none _ (List.prefix_refl _)
  have link := List.prefix_refl (handed cs)
  rw (occs := .pos [2]) [e1] at link
  have one := Hops.one (Link := Broken) .none fileStep_lawful link r1
  have one' := Hops.one (Link := Whole) .none fileStep_lawful e1 r1
  obtain ⟨ds, out, r2, e2⟩ := C144_ends t hm' mode 1 0 9 (by simp) (by simp) _ _ hA hdep hp _ hv' he p
    hq one _ (List.prefix_refl _)
  have two := Hops.one one' fileStep_lawful e2 r2
  obtain ⟨-, hrun⟩ := header_facts hA t 0 9 (by simp) (by simp) hdep hq
  obtain ⟨body, enc, w, w', hs, -, hw⟩ := hops_out t hm' mode env ho 1 0 9 (by simp) (by simp) ledgerTy
    mirrorTy ledgerHeader hA hdep hp (mirror_meets env).1 h1 _ hv he p hq
  have hcode : ∃ (code : Carrier ledgerTy → List UInt8) (back : Carrier ledgerTy → Carrier mirrorTy),
      (∀ v ∈ [ledgerVal, ledgerVal], ∀ more, (deTy t mode env mirrorTy).complete t (code v ++ more) =
        some (.ok (back v), more)) ∧ code ledgerVal ≠ [] ∧
      out = p.exec.1 ++ ([ledgerVal, ledgerVal].map code).flatten := by
    rcases hw out two with h | h
    · exact ⟨_, w, fun v h => (hs v h).direct, h3, h⟩
    · exact ⟨_, w', fun v h => (hs v h).relayed,
        (hs ledgerVal List.mem_cons_self).nonempty h3, h⟩
  obtain ⟨code, back, k1, k2, k3⟩ := hcode
  obtain ⟨xs, o, s', hr⟩ := Runs.exists fileStep_lawful fileStep_live t (Header.deserialize 0 9) out
  obtain ⟨f1, -⟩ := hr.file
  have hpre : handed xs <+: p.exec.1 ++ ([ledgerVal, ledgerVal].map code).flatten := by
    rw [← k3]; exact ⟨s', f1.symm⟩
  rcases header_written fileStep_lawful hrun hr hpre with ⟨rfl, i2⟩ | ⟨⟨e, rfl⟩, i2, i3, c, i4, i5⟩
  · have hs' : s' = ([ledgerVal, ledgerVal].map code).flatten := by
      rw [f1, i2] at k3; exact List.append_cancel_left k3
    obtain ⟨ys, ws, e, s'', hb⟩ := file_reads t (tame_deTy t mode env mirrorTy) code back k2
      (k1 ledgerVal List.mem_cons_self) _ k1 s' (hs' ▸ List.prefix_refl _)
    have hall : ReadsTyped fileStep t (deTy t mode env mirrorTy) 0 9 out (xs ++ ys) _ s'' := .header hr hb
    obtain ⟨g1, g2⟩ := hb.file
    obtain ⟨-, j2, -⟩ := hb.written fileStep_lawful (tame_deTy t mode env mirrorTy) code back
      ⟨_, _, k2, k1 ledgerVal List.mem_cons_self⟩ _ k1
      (List.IsPrefix.trans ⟨s'', g1.symm⟩ (hs' ▸ List.prefix_refl _))
    have hs'' := g2 j2
    subst hs''
    have hh : handed (xs ++ ys) = out := by
      rw [List.append_nil] at g1
      rw [handed_append, ← g1, ← f1]
    obtain ⟨us, l1, l2⟩ := C144_lossless t hm' mode env ho 1 0 9 (by simp) (by simp) ledgerTy mirrorTy
      ledgerHeader hA hdep hp (mirror_meets env).1 h1 _ hv he p hq two fileStep_lawful hall hh
    rw [l1] at hall
    exact ⟨p, cs, mid, ds, out, _, us, _, hq, by rw [hdata]; exact r1, r2, by rw [hdata]; exact two, hall, l2⟩
  · have hx := (hr.file).2 c (List.mem_of_getLast? i4) i5
    subst hx
    rw [List.append_nil] at f1
    exact absurd (i2.eq_of_length_le (by rw [← f1, k3]; simp)) i3

end Dlhn.Props
