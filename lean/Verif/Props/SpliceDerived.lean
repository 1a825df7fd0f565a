import Verif.Proof.SpliceDerived
import Verif.Props.DeriveDe
/-!
# C142: parts of an encoding, for derived types

`PlaceIn T v U u put` (Spec/SpliceDerived.lean): `u` is somewhere inside `v`, in something that is
serialized, and `put x` is `v` with `x` there instead.
-/
namespace Dlhn.Props

open Spec hiding variantFields
open Derive

theorem exec_andThen_inv {p q : WProg SerErr} {bs : List UInt8} (h : (p.andThen q).exec = (bs, .ok ())) :
    ∃ a b, p.exec = (a, .ok ()) ∧ q.exec = (b, .ok ()) ∧ bs = a ++ b := by
  induction p generalizing bs with
  | done o =>
    match o, h with
    | .ok (), h => exact ⟨[], bs, rfl, h, rfl⟩
  | writeAll w f k ih =>
    rw [WProg.andThen, WProg.exec] at h
    obtain ⟨h1, h2⟩ := Prod.mk.inj h
    obtain ⟨a, b, h3, h4, h5⟩ := ih (bs := (k.andThen q).exec.1) (by rw [← h2])
    exact ⟨w ++ a, b, by rw [WProg.exec, h3], h4, by rw [← h1, h5, List.append_assoc]⟩

/-- The bytes of a part are a piece of the bytes of the value: they can be read from there, and when
they are replaced by the bytes of another value of the type - shorter or longer - the result is the
bytes of the value with this part, and is read as such. -/
theorem C142_derived (t : Target) (hm : 4096 ≤ t.memLimit) (mode : BuildMode) (env : Env)
    (ho : FairOrder env) (T : RTy) (hr : Readable T) (hs : Symmetric T) (hd : Defaulted env T)
    (v : Carrier T) (hv : Real t T v) (hdate : DatesRebase mode T v) (hi : InstantsInRange T v)
    (U : RTy) (u : Carrier U) (put : Carrier U → Carrier T) (h : PlaceIn T v U u put) :
    ∃ pre post, (ser mode T v).exec = (pre ++ (ser mode U u).exec.1 ++ post, .ok ()) ∧
      (∃ w, Returned env U u w ∧ ∀ fin rest,
        Prog.exec t fin (deTy t mode env U) ((ser mode U u).exec.1 ++ post ++ rest)
          = .ok (w, post ++ rest)) ∧
      ∀ x, Real t U x → DatesRebase mode U x → InstantsInRange U x →
        (ser mode T (put x)).exec = (pre ++ (ser mode U x).exec.1 ++ post, .ok ()) ∧
        ∃ w, Returned env T (put x) w ∧ ∀ fin rest,
          Prog.exec t fin (deTy t mode env T) (pre ++ (ser mode U x).exec.1 ++ post ++ rest)
            = .ok (w, rest) := by
  obtain ⟨e, hin⟩ := PlaceIn.inside h
  obtain ⟨A, B, hAB⟩ := hin.around mode
  have hU : Readable U ∧ Symmetric U ∧ Defaulted env U :=
    ⟨fun W hW => hr W (hin.types W hW), fun W hW => hs W (hin.types W hW),
      fun W hW => hd W (hin.types W hW)⟩
  obtain ⟨wu, bu, hu1, hu2, hu3⟩ := C71_roundtrip t hm mode env ho U hU.1 hU.2.1 hU.2.2 u
    (fun p hp => hv p (hin.parts p hp)) (fun hm d hp => hdate hm d (hin.parts _ hp))
    (fun d hp => hi d (hin.parts _ hp))
  obtain ⟨wv, bv, hv1, -, -⟩ := C71_roundtrip t hm mode env ho T hr hs hd v hv hdate hi
  have hu := hAB u
  rw [e] at hu
  obtain ⟨pre, b, hp1, hp2, hp3⟩ := exec_andThen_inv (hu ▸ hv1)
  obtain ⟨c, post, hq1, hq2, hq3⟩ := exec_andThen_inv hp2
  rw [hu1] at hq1
  cases hq1
  refine ⟨pre, post, ?_, ⟨wu, hu2, fun fin rest => ?_⟩, fun x hx1 hx2 hx3 => ?_⟩
  · rw [hv1, hu1, hp3, hq3, List.append_assoc]
  · rw [hu1, List.append_assoc]; exact hu3 fin _
  · obtain ⟨wx, bx, hb1, -, -⟩ := C71_roundtrip t hm mode env ho U hU.1 hU.2.1 hU.2.2 x hx1 hx2 hx3
    have hP : Real t T (put x) := by
      intro p hp
      rcases hin.back x p hp with hp | hp | ⟨-, -, q, hq, hpq⟩
      · exact hx1 p hp
      · exact hv p hp
      · exact hpq t (hv q hq)
    have hD : DatesRebase mode T (put x) := by
      intro hm d hp
      rcases hin.back x _ hp with hp | hp | ⟨h1, -, -⟩
      · exact hx2 hm d hp
      · exact hdate hm d hp
      · exact absurd rfl h1
    have hI : InstantsInRange T (put x) := by
      intro d hp
      rcases hin.back x _ hp with hp | hp | ⟨-, h1, -⟩
      · exact hx3 d hp
      · exact hi d hp
      · exact absurd rfl h1
    obtain ⟨w, bs, g1, g2, g3⟩ := C71_roundtrip t hm mode env ho T hr hs hd (put x) hP hD hI
    have hx := hAB x
    obtain ⟨pre', b', hp1', hp2', hp3'⟩ := exec_andThen_inv (hx ▸ g1)
    obtain ⟨c', post', hq1', hq2', hq3'⟩ := exec_andThen_inv hp2'
    rw [hp1] at hp1'
    rw [hq2] at hq2'
    cases hp1'
    cases hq2'
    have hbs : bs = pre ++ (ser mode U x).exec.1 ++ post := by
      rw [hp3', hq3', hq1', List.append_assoc]
    rw [← hbs]
    exact ⟨g1, w, g2, g3⟩

/-! Examples: the name in a record inside a vector, and the number in a variant. -/

/-- `struct Entry { #[serde(skip)] cache: u8, id: u16, name: String }` -/
def entryTy : RTy := .struct "Entry" (.named [.mk [⟨some "serde", some [some "skip"]⟩] "cache" .u8,
  .mk [] "id" .u16, .mk [] "name" .string])

example (a b : Carrier entryTy) (s : String) :
    PlaceIn (.vec entryTy) [a, (0, 7, s, ()), b] .string s
      fun x => [a, (0, 7, x, ()), b] :=
  .element [a] [b] (.field "Entry" (.later _ _ _ _ (.later _ _ _ _ (.this _ _ _ _ (by decide)
    (.here _ _)))))

example (n : UInt16) : PlaceIn (.enum "E" [.mk [] "A" .unit, .mk [] "B" (.unnamed [.mk [] "0" .u16])])
    (.inr (.inl (n, ()))) .u16 n fun x => .inr (.inl (x, ())) :=
  .variant "E" (.later _ _ _ (.unnamed _ _ _ (by decide) (.this _ _ _ _ (by decide) (.here _ _))))

/-- Changing the `id` of the entry from one to three bytes. -/
example (t : Target) (hm : 4096 ≤ t.memLimit) (mode : BuildMode) :
    ∃ pre post, (ser mode entryTy (5, 7, "ab", ())).exec = (pre ++ [7] ++ post, .ok ()) ∧
      ∃ w, ∀ fin rest, Prog.exec t fin (deTy t mode sampleEnv entryTy)
          (pre ++ (ser mode .u16 40000).exec.1 ++ post ++ rest) = .ok (w, rest) := by
  have k1 : Skipped [⟨some "serde", some [some "skip"]⟩] := by decide
  have k2 : ¬ Skipped [] := by decide
  have d1 : SkippedDe [⟨some "serde", some [some "skip"]⟩] := by decide
  have d2 : ¬ SkippedDe [] := by decide
  have c1 : ¬ Conditional [⟨some "serde", some [some "skip"]⟩] := by decide
  have c2 : ¬ Conditional [] := by decide
  have hT : Readable entryTy ∧ Symmetric entryTy ∧ Defaulted sampleEnv entryTy := by
    refine ⟨?_, ?_, ?_⟩ <;>
    · intro U hU
      simp [entryTy, typeParts, typePartsFields, k1, k2] at hU
      rcases hU with rfl | rfl | rfl <;>
        simp [ReadablePart, SymmetricPart, SymmetricFields, DefaultedPart, DefaultedFields,
          declared, fieldAttrs, fieldType, k1, k2, d1, d2, c1, c2, sampleEnv]
  have hp : ∀ p, p ∈ valueParts entryTy (5, 7, "ab", ()) ↔ p = ⟨entryTy, (5, 7, "ab", ())⟩ ∨
      p = ⟨.u16, (7 : UInt16)⟩ ∨ p = ⟨.string, "ab"⟩ := by
    intro p
    simp [entryTy, valueParts, valuePartsFields, k1, k2]
  have hl : (utf8 "ab").length < 2 ^ t.ptr.bits := by
    rw [show (utf8 "ab").length = 2 by decide]; cases t.ptr <;> decide
  obtain ⟨pre, post, h1, -, h3⟩ := C142_derived t hm mode sampleEnv (fun es => List.reverse_perm es)
    entryTy hT.1 hT.2.1 hT.2.2 (5, 7, "ab", ())
    (fun p h => by rcases (hp p).mp h with rfl | rfl | rfl <;> first | trivial | exact hl)
    (fun _ d h => by rcases (hp _).mp h with h | h | h <;> cases h)
    (fun d h => by rcases (hp _).mp h with h | h | h <;> cases h)
    .u16 7 (fun x => (5, x, "ab", ()))
    (.field "Entry" (.later _ _ _ _ (.this _ _ _ _ (by decide) (.here _ _))))
  obtain ⟨-, w, -, h4⟩ := h3 (40000 : UInt16)
    (fun p h => by simp [valueParts] at h; subst h; trivial)
    (fun _ d h => by simp [valueParts] at h) (fun d h => by simp [valueParts] at h)
  refine ⟨pre, post, ?_, w, h4⟩
  rw [h1]
  rw [show (ser mode .u16 (7 : UInt16)).exec.1 = [7] by cases mode <;> decide +kernel]

end Dlhn.Props
