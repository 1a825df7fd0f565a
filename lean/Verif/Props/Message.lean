import Verif.Proof.Mirror
import Verif.Props.Relay
/-!
# C145: a message that carries its header

A message is the header of a type followed by the bytes of a value of it. `Mirrors T v b` of
`Spec/Derive.lean` says that the body `b` shows the value `v : T`.
-/
namespace Dlhn.Props

open Spec hiding variantFields
open Derive

/-! ## C145 -/

/-- No memory is needed for vectors of elements without size. -/
theorem memory_free (t : Target) (h : Header) (T : RTy) (v : Carrier T) :
    MemoryFits t 0 h T v :=
  ⟨fun _ _ => by simp [Target.allocate], fun _ _ _ => by simp [Target.allocate]⟩

/-- If a message begins another, written for whichever type, then the two are the same, byte by
byte, both types announce the same header, and one body shows both values. -/
theorem C145_told (t : Target) (hm : 4096 ≤ t.memLimit) (mode : BuildMode) (T U : RTy)
    (h h' : Header) (hT : Announces T h) (hU : Announces U h') (hp : Plain T) (hp' : Plain U)
    (v : Carrier T) (w : Carrier U) (hv : Real t T v) (hdv : DatesRebase mode T v)
    (hw : Real t U w) (hdw : DatesRebase mode U w) (p q : WProg IoErr)
    (hq : serializeHeader T = .ok p) (hq' : serializeHeader U = .ok q)
    (hpre : p.exec.1 ++ (ser mode T v).exec.1 <+: q.exec.1 ++ (ser mode U w).exec.1) :
    p.exec.1 = q.exec.1 ∧ (ser mode T v).exec.1 = (ser mode U w).exec.1 ∧ h = h' ∧
      ∃ b, Body.validate h b = true ∧ Mirrors T v b ∧ Mirrors U w b := by
  obtain ⟨e1, r1⟩ := header_facts hT t 0 (depth h + depth h') (by simp) (by simp) (by omega) hq
  obtain ⟨e2, r2⟩ := header_facts hU t 0 (depth h + depth h') (by simp) (by simp) (by omega) hq'
  obtain ⟨more, hmore⟩ := hpre
  have k1 := r1 ((ser mode T v).exec.1 ++ more)
  rw [← List.append_assoc, hmore, r2] at k1
  simp only [Outcome.ok.injEq, Prod.mk.injEq] at k1
  obtain ⟨rfl, k2⟩ := k1
  obtain ⟨b, bs, f1, f2, f3, f4, -⟩ := C38_agree t hm mode 0 T h' hT hp v hv hdv
    (memory_free t h' T v)
  obtain ⟨c, cs, g1, g2, -, g4, -⟩ := C38_agree t hm mode 0 U h' hU hp' w hw hdw
    (memory_free t h' U w)
  have f5 := f4 more
  have g5 := g4 []
  rw [f1, g1] at k2
  dsimp only at k2
  rw [List.append_nil, k2, f5] at g5
  simp only [Outcome.ok.injEq, Prod.mk.injEq] at g5
  obtain ⟨rfl, rfl⟩ := g5
  rw [List.append_nil] at k2
  rw [f1, g1]
  have hh : p.exec.1 = q.exec.1 := by rw [e1] at e2; exact (Prod.mk.inj e2).1
  exact ⟨hh, k2.symm, rfl, b, f3, f2, g2⟩

/-- Any number of values after the header: if one such stream begins another, then both types
announce the same header and the values of the first are, one after the other, shown by bodies that
show the first values of the second. -/
theorem C145_stream (t : Target) (hm : 4096 ≤ t.memLimit) (mode : BuildMode) (T U : RTy)
    (h h' : Header) (hT : Announces T h) (hU : Announces U h') (hp : Plain T) (hp' : Plain U)
    (vs : List (Carrier T)) (ws : List (Carrier U))
    (hv : ∀ v ∈ vs, Real t T v ∧ DatesRebase mode T v ∧ (ser mode T v).exec.1 ≠ [])
    (hw : ∀ w ∈ ws, Real t U w ∧ DatesRebase mode U w) (p q : WProg IoErr)
    (hq : serializeHeader T = .ok p) (hq' : serializeHeader U = .ok q)
    (hpre : p.exec.1 ++ (vs.map fun v => (ser mode T v).exec.1).flatten <+:
      q.exec.1 ++ (ws.map fun w => (ser mode U w).exec.1).flatten) :
    h = h' ∧ vs.length ≤ ws.length ∧ ∃ bs, Pointwise (Mirrors T) vs bs ∧
      Pointwise (Mirrors U) (ws.take vs.length) bs := by
  obtain ⟨e1, r1⟩ := header_facts hT t 0 (depth h + depth h') (by simp) (by simp) (by omega) hq
  obtain ⟨e2, r2⟩ := header_facts hU t 0 (depth h + depth h') (by simp) (by simp) (by omega) hq'
  obtain ⟨more, hmore⟩ := hpre
  have k1 := r1 ((vs.map fun v => (ser mode T v).exec.1).flatten ++ more)
  rw [← List.append_assoc, hmore, r2] at k1
  simp only [Outcome.ok.injEq, Prod.mk.injEq] at k1
  obtain ⟨rfl, k2⟩ := k1
  refine ⟨rfl, ?_⟩
  clear hmore
  induction vs generalizing ws with
  | nil => exact ⟨Nat.zero_le _, [], trivial, trivial⟩
  | cons v vs ih =>
    obtain ⟨hv1, hv2, hne⟩ := hv v List.mem_cons_self
    rw [List.map_cons, List.flatten_cons] at k2
    cases ws with
    | nil =>
      rw [List.map_nil, List.flatten_nil, List.append_assoc] at k2
      exact absurd (List.append_eq_nil_iff.mp k2.symm).1 hne
    | cons w ws =>
      obtain ⟨hw1, hw2⟩ := hw w List.mem_cons_self
      obtain ⟨b, bs, f1, f2, -, f4, -⟩ := C38_agree t hm mode 0 T h' hT hp v hv1 hv2
        (memory_free t h' T v)
      obtain ⟨c, cs, g1, g2, -, g4, -⟩ := C38_agree t hm mode 0 U h' hU hp' w hw1 hw2
        (memory_free t h' U w)
      rw [List.map_cons, List.flatten_cons, f1, g1, List.append_assoc] at k2
      dsimp only at k2
      have f5 := f4 ((vs.map fun v => (ser mode T v).exec.1).flatten ++ more)
      rw [← k2, g4] at f5
      simp only [Outcome.ok.injEq, Prod.mk.injEq] at f5
      obtain ⟨rfl, k3⟩ := f5
      obtain ⟨j1, ds, j2, j3⟩ := ih ws (fun u hu => hv u (List.mem_cons_of_mem _ hu))
        (fun u hu => hw u (List.mem_cons_of_mem _ hu)) k3
      exact ⟨by simpa using j1, c :: ds, ⟨f2, j2⟩, ⟨g2, j3⟩⟩

/-- Conversely, if both types announce the same header and one body shows both values, then the
messages are the same, unless a `HashMap` or a `bigdecimal::BigDecimal` is involved. -/
theorem C145_same (t : Target) (hm : 4096 ≤ t.memLimit) (mode : BuildMode) (T U : RTy)
    (h : Header) (hT : Announces T h) (hU : Announces U h) (hp : Plain T) (hp' : Plain U)
    (hn : NoHashMap T) (hn' : NoHashMap U) (hd : ¬ HasNumDecimal T) (hd' : ¬ HasNumDecimal U)
    (v : Carrier T) (w : Carrier U) (hv : Real t T v) (hdv : DatesRebase mode T v)
    (hw : Real t U w) (hdw : DatesRebase mode U w) (p q : WProg IoErr)
    (hq : serializeHeader T = .ok p) (hq' : serializeHeader U = .ok q) (b : Body)
    (hb : Mirrors T v b) (hb' : Mirrors U w b) :
    p.exec.1 ++ (ser mode T v).exec.1 = q.exec.1 ++ (ser mode U w).exec.1 := by
  obtain ⟨e1, -⟩ := header_facts hT t 0 (depth h) (by simp) (by simp) (by omega) hq
  obtain ⟨e2, -⟩ := header_facts hU t 0 (depth h) (by simp) (by simp) (by omega) hq'
  obtain ⟨b1, bs, f1, f2, -, -, f3⟩ := C38_agree t hm mode 0 T h hT hp v hv hdv
    (memory_free t h T v)
  obtain ⟨b2, cs, g1, g2, -, -, g3⟩ := C38_agree t hm mode 0 U h hU hp' w hw hdw
    (memory_free t h U w)
  have i1 := mirrors_one T (fun V hV => ⟨hp V hV, fun W e => hn W (e ▸ hV), fun e => hd (by rw [e] at hV; exact hV)⟩)
    v b1 b f2 hb
  have i2 := mirrors_one U (fun V hV => ⟨hp' V hV, fun W e => hn' W (e ▸ hV),
    fun e => hd' (by rw [e] at hV; exact hV)⟩) w b2 b g2 hb'
  subst i1 i2
  have f4 := f3 hn
  rw [g3 hn'] at f4
  rw [e1] at e2
  rw [(Prod.mk.inj e2).1, f1, g1, (Prod.mk.inj f4).1]

/-- A struct with an identifier, a name and a note that is not serialized. -/
def badgeTy : RTy := .struct "Badge" (.named [.mk [] "id" .u32, .mk [] "name" .string,
  .mk [skipAttr] "note" .u8])

theorem badge_shown (n : UInt32) (s : String) (x : UInt8) (b : Body) :
    Mirrors badgeTy (n, s, x, ()) b ↔ b = .tuple [.uint32 n, .string s] := by
  have h1 : ¬ Skipped [] := by decide
  have h2 : Skipped [skipAttr] := by decide
  unfold badgeTy
  rw [Mirrors]
  constructor
  · rintro ⟨cs, rfl, h⟩
    rw [FieldsMirror, if_neg h1] at h
    obtain ⟨c, cs, rfl, h3, h⟩ := h
    rw [FieldsMirror, if_neg h1] at h
    obtain ⟨d, ds, rfl, h4, h⟩ := h
    rw [FieldsMirror, if_pos h2, FieldsMirror] at h
    simp only [Mirrors] at h3 h4
    rw [h, h3, h4]
  · rintro rfl
    refine ⟨_, rfl, ?_⟩
    rw [FieldsMirror, if_neg h1]
    refine ⟨_, _, rfl, by simp only [Mirrors], ?_⟩
    rw [FieldsMirror, if_neg h1]
    refine ⟨_, _, rfl, by simp only [Mirrors], ?_⟩
    rw [FieldsMirror, if_pos h2, FieldsMirror]

theorem badge_meets (t : Target) (mode : BuildMode) (n : UInt32) (s : String)
    (hs : (utf8 s).length < 2 ^ t.ptr.bits) (x : UInt8) :
    (Announces badgeTy (.tuple [.uint32, .string]) ∧ Plain badgeTy ∧ NoHashMap badgeTy ∧
      ¬ HasNumDecimal badgeTy ∧ Real t badgeTy (n, s, x, ()) ∧
      DatesRebase mode badgeTy (n, s, x, ()) ∧
      Mirrors badgeTy (n, s, x, ()) (.tuple [.uint32 n, .string s])) ∧
    Announces (.tuple [.u32, .str]) (.tuple [.uint32, .string]) ∧ Plain (.tuple [.u32, .str]) ∧
      NoHashMap (.tuple [.u32, .str]) ∧ ¬ HasNumDecimal (.tuple [.u32, .str]) ∧
      Real t (.tuple [.u32, .str]) (n, s, ()) ∧ DatesRebase mode (.tuple [.u32, .str]) (n, s, ()) ∧
      Mirrors (.tuple [.u32, .str]) (n, s, ()) (.tuple [.uint32 n, .string s]) := by
  have h1 : ¬ Skipped [] := by decide
  have h2 : Skipped [skipAttr] := by decide
  have hc : Countable (.tuple [.uint32, .string]) := by simp [Countable, AllCountable]
  have hd : Describes badgeTy (.tuple [.uint32, .string]) := by
    have h : serializedTypes (declared (.named [.mk [] "id" .u32, .mk [] "name" .string,
      .mk [skipAttr] "note" .u8])) = [.u32, .string] := rfl
    refine .struct _ _ _ (by decide) ?_
    rw [h]
    exact .cons _ _ _ _ .u32 (.cons _ _ _ _ .string .nil)
  refine ⟨⟨(announces_iff _ _).mpr ⟨hd, hc⟩, ?_, ?_, ?_, ?_, ?_, ?_⟩,
    (announces_iff _ _).mpr ⟨.tuple _ _ (by decide) (by decide)
      (.cons _ _ _ _ .u32 (.cons _ _ _ _ .str .nil)), hc⟩, ?_, ?_, ?_, ?_, ?_, ?_⟩
  · intro U hU
    simp [badgeTy, typeParts, typePartsFields, h1, h2] at hU
    rcases hU with rfl | rfl | rfl <;> simp [PlainPart]
  · intro U hU
    simp [badgeTy, typeParts, typePartsFields, h1, h2] at hU
  · intro hU
    simp [HasNumDecimal, badgeTy, typeParts, typePartsFields, h1, h2] at hU
  · intro p hp
    simp [badgeTy, valueParts, valuePartsFields, h1, h2] at hp
    rcases hp with rfl | rfl | rfl <;> simp [RealPart, hs]
  · intro _ d hp
    simp [badgeTy, valueParts, valuePartsFields, h1, h2] at hp
  · exact (badge_shown n s x _).mpr rfl
  · intro U hU
    simp [typeParts, typePartsAll] at hU
    rcases hU with rfl | rfl | rfl <;> simp [PlainPart]
  · intro U hU
    simp [typeParts, typePartsAll] at hU
  · intro hU
    simp [HasNumDecimal, typeParts, typePartsAll] at hU
  · intro p hp
    simp [valueParts, valuePartsAll] at hp
    rcases hp with rfl | rfl | rfl <;> simp [RealPart, hs]
  · intro _ d hp
    simp [valueParts, valuePartsAll] at hp
  · rw [Mirrors]
    refine ⟨_, rfl, ?_⟩
    rw [TupleMirrors]
    refine ⟨_, _, rfl, by simp only [Mirrors], ?_⟩
    rw [TupleMirrors]
    exact ⟨_, _, rfl, by simp only [Mirrors], by rw [TupleMirrors]⟩

/-- A badge and the pair of its identifier and its name are one message. -/
example (t : Target) (hm : 4096 ≤ t.memLimit) (mode : BuildMode) (n : UInt32) (s : String)
    (hs : (utf8 s).length < 2 ^ t.ptr.bits) (x : UInt8) :
    ∃ p q, serializeHeader badgeTy = .ok p ∧ serializeHeader (.tuple [.u32, .str]) = .ok q ∧
      p.exec.1 ++ (ser mode badgeTy (n, s, x, ())).exec.1 =
        q.exec.1 ++ (ser mode (.tuple [.u32, .str]) (n, s, ())).exec.1 := by
  obtain ⟨⟨a1, a2, a3, a4, a5, a6, a7⟩, b1, b2, b3, b4, b5, b6, b7⟩ := badge_meets t mode n s hs x
  obtain ⟨⟨p, hp, -⟩, -⟩ := id a1
  obtain ⟨⟨q, hq, -⟩, -⟩ := id b1
  exact ⟨p, q, hp, hq, C145_same t hm mode _ _ _ a1 b1 a2 b2 a3 b3 a4 b4 _ _ a5 a6 b5 b6 p q hp hq _
    a7 b7⟩

/-- If the message of a badge begins that of another badge, both have the same identifier and the
same name. -/
example (t : Target) (hm : 4096 ≤ t.memLimit) (mode : BuildMode) (n m : UInt32) (s r : String)
    (hs : (utf8 s).length < 2 ^ t.ptr.bits) (hr : (utf8 r).length < 2 ^ t.ptr.bits) (x y : UInt8)
    (p : WProg IoErr) (hp : serializeHeader badgeTy = .ok p)
    (hpre : p.exec.1 ++ (ser mode badgeTy (n, s, x, ())).exec.1 <+:
      p.exec.1 ++ (ser mode badgeTy (m, r, y, ())).exec.1) : n = m ∧ s = r := by
  obtain ⟨⟨a1, a2, -, -, a5, a6, -⟩, -⟩ := badge_meets t mode n s hs x
  obtain ⟨⟨-, -, -, -, b5, b6, -⟩, -⟩ := badge_meets t mode m r hr y
  obtain ⟨-, -, -, b, -, h1, h2⟩ := C145_told t hm mode _ _ _ _ a1 a1 a2 a2 _ _ a5 a6 b5 b6 p p hp hp
    hpre
  rw [badge_shown] at h1 h2
  rw [h1] at h2
  simpa using h2

/-- Badges 7 and 8 in one stream and any badges in another. -/
example (t : Target) (hm : 4096 ≤ t.memLimit) (mode : BuildMode) (m : UInt32) (r : String)
    (hr : (utf8 r).length < 2 ^ t.ptr.bits) (p : WProg IoErr) (hp : serializeHeader badgeTy = .ok p)
    (hpre : p.exec.1 ++ ([(7, "Ann", 1, ()), (8, "Bo", 2, ())].map
        fun v => (ser mode badgeTy v).exec.1).flatten <+:
      p.exec.1 ++ ([(m, r, 3, ()), (8, "Bo", 4, ()), (9, "Cy", 5, ())].map
        fun v => (ser mode badgeTy v).exec.1).flatten) : m = 7 ∧ r = "Ann" := by
  have hlen : ∀ s : String, (utf8 s).length ≤ 3 → (utf8 s).length < 2 ^ t.ptr.bits := by
    intro s hs
    have : 2 ^ 5 ≤ 2 ^ t.ptr.bits := Nat.pow_le_pow_right (by decide) (by cases t.ptr <;> decide)
    omega
  have meets := fun n s x (hs : (utf8 s).length ≤ 3) => badge_meets t mode n s (hlen s hs) x
  have bo := fun x => (meets 8 "Bo" x (by decide)).1
  have ann := (meets 7 "Ann" 1 (by decide)).1
  have cy := (meets 9 "Cy" 5 (by decide)).1
  have new := (badge_meets t mode m r hr 3).1
  obtain ⟨-, -, bs, h1, h2⟩ := C145_stream t hm mode badgeTy badgeTy _ _ ann.1 ann.1 ann.2.1 ann.2.1
    [(7, "Ann", 1, ()), (8, "Bo", 2, ())] [(m, r, 3, ()), (8, "Bo", 4, ()), (9, "Cy", 5, ())]
    (fun v hv => by
      rcases hv with _ | ⟨_, _ | ⟨_, _ | _⟩⟩
      · exact ⟨ann.2.2.2.2.1, ann.2.2.2.2.2.1, by cases mode <;> decide +kernel⟩
      · exact ⟨(bo 2).2.2.2.2.1, (bo 2).2.2.2.2.2.1, by cases mode <;> decide +kernel⟩)
    (fun w hw => by
      rcases hw with _ | ⟨_, _ | ⟨_, _ | ⟨_, _ | _⟩⟩⟩
      · exact ⟨new.2.2.2.2.1, new.2.2.2.2.2.1⟩
      · exact ⟨(bo 4).2.2.2.2.1, (bo 4).2.2.2.2.2.1⟩
      · exact ⟨cy.2.2.2.2.1, cy.2.2.2.2.2.1⟩) p p hp hp hpre
  match bs, h1, h2 with
  | b :: _, h1, h2 =>
    have k1 := (badge_shown _ _ _ _).mp h1.1
    have k2 := (badge_shown _ _ _ _).mp h2.1
    rw [k1] at k2
    simp at k2
    exact ⟨k2.1.symm, k2.2.symm⟩

/-- The same for messages from bodies: a header followed by a body that is valid for it. If one
begins another, then the headers and the bodies are the same. -/
theorem C145_body (t : Target) (hm : 4096 ≤ t.memLimit) (mode : BuildMode) (h h' : Header)
    (hc : Countable h) (hc' : Countable h') (b b' : Body) (hv : Body.validate h b = true)
    (hv' : Body.validate h' b' = true) (he : Spec.Exists t b) (he' : Spec.Exists t b')
    (hcl : CleanDecimals b) (hcl' : CleanDecimals b') (hd : DatesFit mode b)
    (hd' : DatesFit mode b')
    (hpre : h.toVec.1 ++ (Body.toVec mode b).1 <+: h'.toVec.1 ++ (Body.toVec mode b').1) :
    h = h' ∧ b = b' := by
  obtain ⟨x, e1, r1⟩ := C30_roundtrip t 0 (depth h + depth h') (by simp) (by simp) h hc (by omega)
  obtain ⟨y, e2, r2⟩ := C30_roundtrip t 0 (depth h + depth h') (by simp) (by simp) h' hc' (by omega)
  obtain ⟨more, hmore⟩ := hpre
  rw [e1, e2] at hmore
  have k1 := r1 ((Body.toVec mode b).1 ++ more)
  rw [← List.append_assoc, hmore, r2] at k1
  simp only [Outcome.ok.injEq, Prod.mk.injEq] at k1
  obtain ⟨rfl, k2⟩ := k1
  have free : ∀ c : Body, VectorsFit t 0 c := fun c bs _ => by simp [Target.allocate]
  exact ⟨rfl, C35_prefix_free t hm mode 0 h' b b' hv he hcl hd (free b) hv' he' hcl' hd' (free b')
    ⟨more, k2.symm⟩⟩

/-- A body that differs is no part of a longer message. -/
example (h : Header) (hc' : Countable h) (b : Body)
    (hv : Body.validate h b = true) (he : Spec.Exists ⟨.w64, 4096⟩ b) (hcl : CleanDecimals b)
    (hd : DatesFit .debug b) (hne : b ≠ sampleBody) :
    ¬ sampleShape.toVec.1 ++ (Body.toVec .debug sampleBody).1 <+:
      h.toVec.1 ++ (Body.toVec .debug b).1 := by
  obtain ⟨h1, h2, h3, h4, -⟩ := sampleBody_meets ⟨.w64, 4096⟩ .debug 56 (by decide)
  have hc : Countable sampleShape := by simp [sampleShape, Countable, AllCountable]
  exact fun hp => hne (C145_body _ (by decide) .debug _ _ hc hc' _ _ h1 hv h2 he h3 hcl h4 hd hp).2.symm

/-- The header is needed: without it values of different types, one `true` and one a number, have
the same bytes, and so do a string and its bytes. -/
theorem C145_without (mode : BuildMode) :
    (ser mode .bool true).exec = (ser mode .u8 1).exec ∧
    (∀ s : String, (ser mode .string s).exec = (ser mode .byteBuf (utf8 s)).exec) ∧
    ¬ ∃ b, Mirrors .bool true b ∧ Mirrors .u8 1 b := by
  refine ⟨by simp [ser]; rfl, fun s => ?_, ?_⟩
  · simp [ser]; rfl
  · rintro ⟨b, h1, h2⟩
    simp only [Mirrors] at h1 h2
    rw [h1] at h2
    cases h2

end Dlhn.Props
