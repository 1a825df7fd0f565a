import Verif.Spec.SpliceDerived
import Verif.Proof.SerIf
import Verif.Proof.Adjacent
/-!
# Lemmas about places inside values of derived types
-/
namespace Dlhn.Derive

open Spec hiding variantFields

/-- What holds for everything that contains the place: `tp` its types, `vp` its parts, `vpx x` its
parts with `x` at the place, `s mode x` what is then written. -/
structure Inside {U : RTy} (u : Carrier U) (tp : List RTy) (vp : List (Σ T, Carrier T))
    (vpx : Carrier U → List (Σ T, Carrier T)) (s : BuildMode → Carrier U → WProg SerErr) : Prop where
  types : ∀ W ∈ typeParts U, W ∈ tp
  parts : ∀ p ∈ valueParts U u, p ∈ vp
  back : ∀ x p, p ∈ vpx x → p ∈ valueParts U x ∨ p ∈ vp ∨
    (p.1 ≠ .date ∧ p.1 ≠ .offsetDateTime ∧ ∃ q ∈ vp, ∀ t, RealPart t q → RealPart t p)
  around : ∀ mode, ∃ A B : WProg SerErr, ∀ x, s mode x = A.andThen ((ser mode U x).andThen B)

namespace Inside

variable {U : RTy} {u : Carrier U} {tp : List RTy} {vp : List (Σ T, Carrier T)}
  {vpx : Carrier U → List (Σ T, Carrier T)} {s : BuildMode → Carrier U → WProg SerErr}

theorem here (U : RTy) (u : Carrier U) :
    Inside u (typeParts U) (valueParts U u) (fun x => valueParts U x) fun mode x => ser mode U x where
  types := fun _ h => h
  parts := fun _ h => h
  back := fun _ _ h => .inl h
  around := fun mode => ⟨.skip, .skip, fun x => by rw [andThen_skip_prog]; rfl⟩

/-- Something around it. -/
theorem wrap (h : Inside u tp vp vpx s) {tp' : List RTy} {vp' : List (Σ T, Carrier T)}
    {vpx' : Carrier U → List (Σ T, Carrier T)} {s' : BuildMode → Carrier U → WProg SerErr}
    (ht : ∀ W ∈ tp, W ∈ tp') (hv : ∀ p ∈ vp, p ∈ vp')
    (hx : ∀ x p, p ∈ vpx' x → p ∈ vpx x ∨ p ∈ vp' ∨
      (p.1 ≠ .date ∧ p.1 ≠ .offsetDateTime ∧ ∃ q ∈ vp', ∀ t, RealPart t q → RealPart t p))
    (hs : ∀ mode, ∃ A B : WProg SerErr, ∀ x, s' mode x = A.andThen ((s mode x).andThen B)) :
    Inside u tp' vp' vpx' s' where
  types := fun W hW => ht W (h.types W hW)
  parts := fun p hp => hv p (h.parts p hp)
  back := fun x p hp => by
    rcases hx x p hp with hp | hp | hp
    · rcases h.back x p hp with hp | hp | ⟨h1, h2, q, hq, h3⟩
      · exact .inl hp
      · exact .inr (.inl (hv p hp))
      · exact .inr (.inr ⟨h1, h2, q, hv q hq, h3⟩)
    · exact .inr (.inl hp)
    · exact .inr (.inr hp)
  around := fun mode => by
    obtain ⟨A, B, h1⟩ := h.around mode
    obtain ⟨A', B', h2⟩ := hs mode
    refine ⟨A'.andThen A, B.andThen B', fun x => ?_⟩
    rw [h2, h1]
    simp only [andThen_assoc]

end Inside

theorem serSeq_mid {α : Type} (f : α → WProg SerErr) (vs : List α) (v : α) (ws : List α) :
    serSeq f (vs ++ v :: ws) = (serSeq f vs).andThen ((f v).andThen (serSeq f ws)) := by
  induction vs with
  | nil => rfl
  | cons x vs ih => rw [List.cons_append, serSeq, serSeq, ih, andThen_assoc]

theorem serMap_mid {α : Type} (f : α → WProg SerErr) (es : List (String × α)) (k : String) (v : α)
    (fs : List (String × α)) :
    serMap f (es ++ (k, v) :: fs) =
      ((serMap f es).andThen (Ser.serStr k)).andThen ((f v).andThen (serMap f fs)) := by
  induction es with
  | nil => rw [List.nil_append, serMap, serMap]; rfl
  | cons x es ih =>
    obtain ⟨k', x⟩ := x
    rw [List.cons_append, serMap, serMap, ih]
    simp only [andThen_assoc]

theorem _root_.Dlhn.Spec.FieldIn.only {attrs : List Attr} {name : String} {T U : RTy}
    {vs : FieldCarrier [.mk attrs name T]} {u : Carrier U} {put : Carrier U → FieldCarrier _}
    (h : FieldIn [.mk attrs name T] vs U u put) : ¬ Skipped attrs := by
  generalize hf : [RField.mk attrs name T] = fs at vs put h
  cases h with
  | this _ _ _ _ kept => cases hf; exact kept
  | later _ _ _ _ h => cases hf; cases h

theorem unnamed_fields (name : String) (mode : BuildMode) : {fs : List RField} →
    {vs : FieldCarrier fs} → {U : RTy} → {u : Carrier U} → {put : Carrier U → FieldCarrier fs} →
    FieldIn fs vs U u put → ∀ x, ser mode (.struct name (.unnamed fs)) (put x) = serFields mode fs (put x)
  | [.mk attrs _ T], _, _, _, _, h, x => by
    rw [ser, serFields, if_neg (fun hs => h.only ((serdeSkips_iff attrs).mp hs)), serFields,
      andThen_skip_prog]
  | f :: g :: fs, _, _, _, _, _, x => by rw [ser]
  | [], _, _, _, _, h, _ => nomatch h

mutual
theorem PlaceIn.inside : {T : RTy} → {v : Carrier T} → {U : RTy} → {u : Carrier U} →
    {put : Carrier U → Carrier T} → PlaceIn T v U u put →
    put u = v ∧ Inside u (typeParts T) (valueParts T v) (fun x => valueParts T (put x))
      fun mode x => ser mode T (put x)
  | _, _, _, _, _, .here T v => ⟨rfl, .here T v⟩
  | _, _, _, _, _, .some (T := T) (put := put) h => by
    obtain ⟨e, hi⟩ := PlaceIn.inside h
    refine ⟨by dsimp only; rw [e], hi.wrap ?_ ?_ ?_ ?_⟩
    · intro W hW; rw [typeParts]; exact .tail _ hW
    · intro p hp; rw [valueParts]; exact .tail _ hp
    · intro x p hp
      rw [valueParts] at hp
      rcases List.mem_cons.mp hp with rfl | hp
      · exact .inr (.inr ⟨by simp, by simp, _, by rw [valueParts]; exact .head _, fun t _ => trivial⟩)
      · exact .inl hp
    · intro mode
      exact ⟨Ser.emit [1], .skip, fun x => by rw [ser, andThen_skip_prog]⟩
  | _, _, _, _, _, .element (T := T) (put := put) (v := v) vs ws h => by
    obtain ⟨e, hi⟩ := PlaceIn.inside h
    refine ⟨by dsimp only; rw [e], hi.wrap ?_ ?_ ?_ ?_⟩
    · intro W hW; rw [typeParts]; exact .tail _ hW
    · intro p hp; rw [valueParts]; simp [hp]
    · intro x p hp
      rw [valueParts] at hp
      rcases List.mem_cons.mp hp with rfl | hp
      · refine .inr (.inr ⟨by simp, by simp, ⟨.vec T, vs ++ v :: ws⟩,
          by rw [valueParts]; exact .head _, fun t h => ?_⟩)
        simpa [RealPart] using h
      · simp only [List.map_append, List.map_cons, List.flatten_append, List.flatten_cons,
          List.mem_append] at hp
        rcases hp with hp | hp | hp
        · exact .inr (.inl (by rw [valueParts]; simp only [List.map_append, List.flatten_append,
            List.mem_cons, List.mem_append]; exact .inr (.inl hp)))
        · exact .inl hp
        · exact .inr (.inl (by rw [valueParts]; simp only [List.map_append, List.map_cons,
            List.flatten_append, List.flatten_cons, List.mem_cons, List.mem_append]
                               exact .inr (.inr (.inr hp))))
    · intro mode
      refine ⟨(Ser.serHint (some (vs.length + (ws.length + 1)))).andThen (serSeq (ser mode T) vs),
        serSeq (ser mode T) ws, fun x => ?_⟩
      rw [ser, serSeq_mid, andThen_assoc, List.length_append, List.length_cons]
  | _, _, _, _, _, .value (T := T) (put := put) (v := v) k es fs h => by
    obtain ⟨e, hi⟩ := PlaceIn.inside h
    refine ⟨by dsimp only; rw [e], hi.wrap ?_ ?_ ?_ ?_⟩
    · intro W hW; rw [typeParts]; exact .tail _ hW
    · intro p hp; rw [valueParts]; simp [hp]
    · intro x p hp
      rw [valueParts] at hp
      rcases List.mem_cons.mp hp with rfl | hp
      · refine .inr (.inr ⟨by simp, by simp, ⟨.btreeMap T, es ++ (k, v) :: fs⟩,
          by rw [valueParts]; exact .head _, fun t h => ?_⟩)
        obtain ⟨h1, h2, h3⟩ := h
        refine ⟨by simpa using h1, fun y hy => ?_, ?_⟩
        · simp only [List.mem_append, List.mem_cons] at hy h2
          rcases hy with hy | rfl | hy
          · exact h2 y (.inl hy)
          · exact h2 (k, v) (.inr (.inl rfl))
          · exact h2 y (.inr (.inr hy))
        · rw [List.pairwise_append, List.pairwise_cons] at h3 ⊢
          refine ⟨h3.1, ⟨h3.2.1.1, h3.2.1.2⟩, fun a ha b hb => ?_⟩
          rcases List.mem_cons.mp hb with rfl | hb
          · exact h3.2.2 a ha (k, v) (.head _)
          · exact h3.2.2 a ha b (.tail _ hb)
      · simp only [List.map_append, List.map_cons, List.flatten_append, List.flatten_cons,
          List.mem_append] at hp
        rcases hp with hp | hp | hp
        · exact .inr (.inl (by rw [valueParts]; simp only [List.map_append, List.flatten_append,
            List.mem_cons, List.mem_append]; exact .inr (.inl hp)))
        · exact .inl hp
        · exact .inr (.inl (by rw [valueParts]; simp only [List.map_append, List.map_cons,
            List.flatten_append, List.flatten_cons, List.mem_cons, List.mem_append]
                               exact .inr (.inr (.inr hp))))
    · intro mode
      refine ⟨(Ser.serHint (some (es.length + (fs.length + 1)))).andThen
        ((serMap (ser mode T) es).andThen (Ser.serStr k)), serMap (ser mode T) fs, fun x => ?_⟩
      rw [ser, serMap_mid, List.length_append, List.length_cons]
      simp only [andThen_assoc]
  | _, _, _, _, _, .hashValue (T := T) (put := put) (v := v) k es fs h => by
    obtain ⟨e, hi⟩ := PlaceIn.inside h
    refine ⟨by dsimp only; rw [e], hi.wrap ?_ ?_ ?_ ?_⟩
    · intro W hW; rw [typeParts]; exact .tail _ hW
    · intro p hp; rw [valueParts]; simp [hp]
    · intro x p hp
      rw [valueParts] at hp
      rcases List.mem_cons.mp hp with rfl | hp
      · refine .inr (.inr ⟨by simp, by simp, ⟨.hashMap T, es ++ (k, v) :: fs⟩,
          by rw [valueParts]; exact .head _, fun t h => ?_⟩)
        obtain ⟨h1, h2, h3⟩ := h
        refine ⟨by simpa using h1, fun y hy => ?_, ?_⟩
        · simp only [List.mem_append, List.mem_cons] at hy h2
          rcases hy with hy | rfl | hy
          · exact h2 y (.inl hy)
          · exact h2 (k, v) (.inr (.inl rfl))
          · exact h2 y (.inr (.inr hy))
        · rw [List.pairwise_append, List.pairwise_cons] at h3 ⊢
          refine ⟨h3.1, ⟨h3.2.1.1, h3.2.1.2⟩, fun a ha b hb => ?_⟩
          rcases List.mem_cons.mp hb with rfl | hb
          · exact h3.2.2 a ha (k, v) (.head _)
          · exact h3.2.2 a ha b (.tail _ hb)
      · simp only [List.map_append, List.map_cons, List.flatten_append, List.flatten_cons,
          List.mem_append] at hp
        rcases hp with hp | hp | hp
        · exact .inr (.inl (by rw [valueParts]; simp only [List.map_append, List.flatten_append,
            List.mem_cons, List.mem_append]; exact .inr (.inl hp)))
        · exact .inl hp
        · exact .inr (.inl (by rw [valueParts]; simp only [List.map_append, List.map_cons,
            List.flatten_append, List.flatten_cons, List.mem_cons, List.mem_append]
                               exact .inr (.inr (.inr hp))))
    · intro mode
      refine ⟨(Ser.serHint (some (es.length + (fs.length + 1)))).andThen
        ((serMap (ser mode T) es).andThen (Ser.serStr k)), serMap (ser mode T) fs, fun x => ?_⟩
      rw [ser, serMap_mid, List.length_append, List.length_cons]
      simp only [andThen_assoc]
  | _, _, _, _, _, .member h => by
    obtain ⟨e, hi⟩ := MemberIn.inside h
    refine ⟨e, hi.wrap ?_ ?_ ?_ ?_⟩
    · intro W hW; rw [typeParts]; exact .tail _ hW
    · intro p hp; rw [valueParts]; exact .tail _ hp
    · intro x p hp
      rw [valueParts] at hp
      rcases List.mem_cons.mp hp with rfl | hp
      · exact .inr (.inr ⟨by simp, by simp, _, by rw [valueParts]; exact .head _, fun t _ => trivial⟩)
      · exact .inl hp
    · exact fun mode => ⟨.skip, .skip, fun x => by rw [ser, andThen_skip_prog]; rfl⟩
  | _, _, _, _, _, .field name h => by
    obtain ⟨e, hi⟩ := FieldIn.inside h
    refine ⟨e, hi.wrap ?_ ?_ ?_ ?_⟩
    · intro W hW; rw [typeParts]; exact .tail _ hW
    · intro p hp; rw [valueParts]; exact .tail _ hp
    · intro x p hp
      rw [valueParts] at hp
      rcases List.mem_cons.mp hp with rfl | hp
      · exact .inr (.inr ⟨by simp, by simp, _, by rw [valueParts]; exact .head _, fun t _ => trivial⟩)
      · exact .inl hp
    · exact fun mode => ⟨.skip, .skip, fun x => by rw [ser, andThen_skip_prog]; rfl⟩
  | _, _, _, _, _, .tupleField name (fs := fs) (put := put) h => by
    obtain ⟨e, hi⟩ := FieldIn.inside h
    refine ⟨e, hi.wrap ?_ ?_ ?_ ?_⟩
    · intro W hW; rw [typeParts]; exact .tail _ hW
    · intro p hp; rw [valueParts]; exact .tail _ hp
    · intro x p hp
      rw [valueParts] at hp
      rcases List.mem_cons.mp hp with rfl | hp
      · exact .inr (.inr ⟨by simp, by simp, _, by rw [valueParts]; exact .head _, fun t _ => trivial⟩)
      · exact .inl hp
    · refine fun mode => ⟨.skip, .skip, fun x => ?_⟩
      rw [andThen_skip_prog]
      show _ = serFields mode fs (put x)
      exact unnamed_fields name mode h x
  | _, _, _, _, _, .variant name h => by
    obtain ⟨e, hi⟩ := VariantIn.inside name 0 h
    refine ⟨e, hi.wrap ?_ ?_ ?_ ?_⟩
    · intro W hW; rw [typeParts]; exact .tail _ hW
    · intro p hp; rw [valueParts]; exact .tail _ hp
    · intro x p hp
      rw [valueParts] at hp
      rcases List.mem_cons.mp hp with rfl | hp
      · exact .inr (.inr ⟨by simp, by simp, _, by rw [valueParts]; exact .head _, fun t _ => trivial⟩)
      · exact .inl hp
    · exact fun mode => ⟨.skip, .skip, fun x => by rw [ser, andThen_skip_prog]; rfl⟩
theorem MemberIn.inside : {Ts : List RTy} → {vs : TupleCarrier Ts} → {U : RTy} → {u : Carrier U} →
    {put : Carrier U → TupleCarrier Ts} → MemberIn Ts vs U u put →
    put u = vs ∧ Inside u (typePartsAll Ts) (valuePartsAll Ts vs) (fun x => valuePartsAll Ts (put x))
      fun mode x => serTuple mode Ts (put x)
  | _, _, _, _, _, .this Ts vs h => by
    obtain ⟨e, hi⟩ := PlaceIn.inside h
    refine ⟨by dsimp only; rw [e], hi.wrap ?_ ?_ ?_ ?_⟩
    · intro W hW; rw [typePartsAll]; exact List.mem_append_left _ hW
    · intro p hp; rw [valuePartsAll]; exact List.mem_append_left _ hp
    · intro x p hp
      rw [valuePartsAll] at hp
      rcases List.mem_append.mp hp with hp | hp
      · exact .inl hp
      · exact .inr (.inl (by rw [valuePartsAll]; exact List.mem_append_right _ hp))
    · exact fun mode => ⟨.skip, serTuple mode Ts vs, fun x => by rw [serTuple]; rfl⟩
  | _, _, _, _, _, .later T v h => by
    obtain ⟨e, hi⟩ := MemberIn.inside h
    refine ⟨by dsimp only; rw [e], hi.wrap ?_ ?_ ?_ ?_⟩
    · intro W hW; rw [typePartsAll]; exact List.mem_append_right _ hW
    · intro p hp; rw [valuePartsAll]; exact List.mem_append_right _ hp
    · intro x p hp
      rw [valuePartsAll] at hp
      rcases List.mem_append.mp hp with hp | hp
      · exact .inr (.inl (by rw [valuePartsAll]; exact List.mem_append_left _ hp))
      · exact .inl hp
    · exact fun mode => ⟨ser mode T v, .skip, fun x => by rw [serTuple, andThen_skip_prog]⟩
theorem FieldIn.inside : {fs : List RField} → {vs : FieldCarrier fs} → {U : RTy} → {u : Carrier U} →
    {put : Carrier U → FieldCarrier fs} → FieldIn fs vs U u put →
    put u = vs ∧ Inside u (typePartsFields fs) (valuePartsFields fs vs)
      (fun x => valuePartsFields fs (put x)) fun mode x => serFields mode fs (put x)
  | _, _, _, _, _, .this attrs name fs vs kept h => by
    obtain ⟨e, hi⟩ := PlaceIn.inside h
    refine ⟨by dsimp only; rw [e], hi.wrap ?_ ?_ ?_ ?_⟩
    · intro W hW; rw [typePartsFields, if_neg kept]; exact List.mem_append_left _ hW
    · intro p hp; rw [valuePartsFields, if_neg kept]; exact List.mem_append_left _ hp
    · intro x p hp
      rw [valuePartsFields, if_neg kept] at hp
      rcases List.mem_append.mp hp with hp | hp
      · exact .inl hp
      · exact .inr (.inl (by rw [valuePartsFields]; exact List.mem_append_right _ hp))
    · exact fun mode => ⟨.skip, serFields mode fs vs, fun x => by
        rw [serFields, if_neg (fun hs => kept ((serdeSkips_iff attrs).mp hs))]; rfl⟩
  | _, _, _, _, _, .later attrs name T v h => by
    obtain ⟨e, hi⟩ := FieldIn.inside h
    refine ⟨by dsimp only; rw [e], hi.wrap ?_ ?_ ?_ ?_⟩
    · intro W hW; rw [typePartsFields]; exact List.mem_append_right _ hW
    · intro p hp; rw [valuePartsFields]; exact List.mem_append_right _ hp
    · intro x p hp
      rw [valuePartsFields] at hp
      rcases List.mem_append.mp hp with hp | hp
      · exact .inr (.inl (by rw [valuePartsFields]; exact List.mem_append_left _ hp))
      · exact .inl hp
    · intro mode
      by_cases hs : serdeSkips attrs = true
      · exact ⟨.skip, .skip, fun x => by rw [serFields, if_pos hs, andThen_skip_prog]; rfl⟩
      · exact ⟨ser mode T v, .skip, fun x => by rw [serFields, if_neg hs, andThen_skip_prog]⟩
theorem VariantIn.inside (enum : String) (i : Nat) : {vs : List RVariant} → {v : VariantsCarrier vs} →
    {U : RTy} → {u : Carrier U} → {put : Carrier U → VariantsCarrier vs} → VariantIn vs v U u put →
    put u = v ∧ Inside u (typePartsVariants vs) (valuePartsVariant vs v)
      (fun x => valuePartsVariant vs (put x)) fun mode x => serVariant mode enum i vs (put x)
  | _, _, _, _, _, .named attrs name vs kept h => by
    obtain ⟨e, hi⟩ := FieldIn.inside h
    refine ⟨by dsimp only; rw [e], hi.wrap ?_ ?_ ?_ ?_⟩
    · intro W hW; rw [typePartsVariants]; exact List.mem_append_left _ hW
    · intro p hp; rw [valuePartsVariant]; exact hp
    · intro x p hp; rw [valuePartsVariant] at hp; exact .inl hp
    · exact fun mode => ⟨Ser.serU32 (UInt32.ofNat i), .skip, fun x => by
        rw [serVariant, if_neg (fun hs => kept ((serdeSkips_iff attrs).mp hs)), andThen_skip_prog]⟩
  | _, _, _, _, _, .unnamed attrs name vs kept h => by
    obtain ⟨e, hi⟩ := FieldIn.inside h
    refine ⟨by dsimp only; rw [e], hi.wrap ?_ ?_ ?_ ?_⟩
    · intro W hW; rw [typePartsVariants]; exact List.mem_append_left _ hW
    · intro p hp; rw [valuePartsVariant]; exact hp
    · intro x p hp; rw [valuePartsVariant] at hp; exact .inl hp
    · exact fun mode => ⟨Ser.serU32 (UInt32.ofNat i), .skip, fun x => by
        rw [serVariant, if_neg (fun hs => kept ((serdeSkips_iff attrs).mp hs)), andThen_skip_prog]⟩
  | _, _, _, _, _, .later attrs name fields h => by
    obtain ⟨e, hi⟩ := VariantIn.inside enum (i + 1) h
    refine ⟨by dsimp only; rw [e], hi.wrap ?_ ?_ ?_ ?_⟩
    · intro W hW
      cases fields <;> rw [typePartsVariants]
      · exact List.mem_append_right _ hW
      · exact List.mem_append_right _ hW
      · exact hW
    · intro p hp; rw [valuePartsVariant]; exact hp
    · intro x p hp; rw [valuePartsVariant] at hp; exact .inl hp
    · exact fun mode => ⟨.skip, .skip, fun x => by rw [serVariant, andThen_skip_prog]; rfl⟩
end

end Dlhn.Derive
