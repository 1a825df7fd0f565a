import Verif.Spec.Attrs
import Verif.Proof.Visit
import Verif.Proof.SerImpl
/-! # Facts about serde attributes -/
namespace Dlhn

open De PrefixVarint Spec

theorem AField.answers_name (f : AField) : f.answers f.name := by simp [AField.answers]

theorem fillOr_full : (fs : List AField) → (vs : List Val) → fs.length = vs.length →
    fillOr fs (vs.map some) = .ok ((fs.map (·.name)).zip vs)
  | [], [], _ => rfl
  | f :: fs, v :: vs, h => by
    rw [List.map_cons, fillOr, fillOr_full fs vs (by simpa using h)]
    rfl

theorem keysApart_middle {pre post : List AField} {f : AField}
    (h : KeysApart (pre ++ f :: post)) : ∀ g ∈ pre, ¬ g.answers f.name := by
  intro g hg
  exact ((List.pairwise_append.mp h).2.2 g hg f (by simp)).1

theorem findIdx_apart {pre post : List AField} {f : AField} {key : String} (hk : f.answers key)
    (h : ∀ g ∈ pre, ¬ g.answers key) :
    (pre ++ f :: post).findIdx? (fun x => x.answers key) = some pre.length := by
  rw [List.findIdx?_eq_some_iff_getElem]
  refine ⟨by simp, by simpa using hk, fun j hj => ?_⟩
  simpa [List.getElem_append_left hj] using h _ (List.getElem_mem hj)

/-- One more field: the key, then the value. -/
theorem run_visitFields_step (t : Target) (deny : Bool) (pre post : List AField) (f : AField)
    (vs : List Val) (hl : vs.length = pre.length) (hk : ∀ g ∈ pre, ¬ g.answers f.name)
    (fuel : Nat) (keys : List String) :
    (visitFields deny (pre ++ f :: post) (fuel + 1)
        (vs.map some ++ (none :: post.map fun _ => none))).run t (f.name :: keys)
      = Prog.bind ((implOf f.ty).run t) fun v =>
          (visitFields deny (pre ++ f :: post) fuel
            ((vs ++ [v]).map some ++ post.map fun _ => none)).run t keys := by
  have hslot : (vs.map some ++ ((none : Option Val) :: post.map fun _ => none))[pre.length]?
      = some none := by
    rw [List.getElem?_append_right (by simp [hl])]
    simp [hl]
  have hf : (pre ++ f :: post)[pre.length]? = some f := by simp
  rw [visitFields, FieldsImpl.run]
  dsimp only
  rw [findIdx_apart f.answers_name hk]
  dsimp only
  simp only [hslot, hf]
  rw [FieldsImpl.run]
  congr; funext v
  have hset : (vs.map some ++ (none :: post.map fun _ => (none : Option Val))).set pre.length (some v)
      = (vs ++ [v]).map some ++ post.map fun _ => none := by
    rw [List.set_append_right _ _ (by simp [hl])]
    simp [hl]
  rw [hset]

theorem run_visitFields (t : Target) (deny : Bool) (pre post : List AField) (vs : List Val)
    (hl : vs.length = pre.length) (hn : KeysApart (pre ++ post))
    (hd : FieldsDistinct (plainFields post)) :
    (visitFields deny (pre ++ post) (post.length + 1)
        (vs.map some ++ post.map fun _ => none)).run t (post.map (·.name))
      = Prog.bind (deFields t (plainFields post)) fun ws =>
          .done (.ok ((pre.map (·.name)).zip vs ++ ws)) := by
  induction post generalizing pre vs with
  | nil =>
    simp only [List.append_nil, List.map_nil]
    rw [visitFields, FieldsImpl.run]
    dsimp only
    rw [fillOr_full pre vs hl.symm]
    simp [FieldsImpl.run, plainFields, deFields, pure, Prog.pure, Prog.bind]
  | cons f post ih =>
    rw [plainFields, List.map_cons, FieldsDistinct] at hd
    rw [List.map_cons, List.map_cons, List.length_cons,
      run_visitFields_step t deny pre post f vs hl (keysApart_middle hn), run_implOf t f.ty hd.1]
    rw [plainFields, List.map_cons, deFields, Prog.bind_eq, Prog.bind_assoc]
    congr; funext v
    have := ih (pre ++ [f]) (vs ++ [v]) (by simp [hl]) (by simpa using hn) hd.2
    rw [List.append_assoc, List.singleton_append] at this
    rw [this, Prog.bind_eq, Prog.bind_assoc]
    congr; funext ws
    show Prog.done _ = Prog.done _
    rw [List.map_append, List.zip_append (by simp [hl])]
    simp

/-- A key that stands for a field already read. -/
theorem run_visitFields_again (t : Target) (deny : Bool) (pre post : List AField) (f : AField)
    (key : String) (keys : List String) (slots : List (Option Val)) (v : Val)
    (hs : slots[pre.length]? = some (some v)) (hk : f.answers key) (hp : ∀ g ∈ pre, ¬ g.answers key)
    (fuel : Nat) :
    (visitFields deny (pre ++ f :: post) (fuel + 1) slots).run t (key :: keys)
      = .done (.err (.message ("duplicate field `" ++ f.name ++ "`"))) := by
  have hf : (pre ++ f :: post)[pre.length]? = some f := by simp
  rw [visitFields, FieldsImpl.run]
  dsimp only
  rw [findIdx_apart hk hp]
  dsimp only
  simp only [hs, hf]
  rw [FieldsImpl.run]

theorem run_visitFields_alias (t : Target) (deny : Bool) (done pre post : List AField) (f : AField)
    (key : String) (keys : List String) (vs : List Val) (hl : vs.length = done.length)
    (hn : KeysApart (done ++ (pre ++ f :: post))) (hk : f.answers key)
    (hp : ∀ g ∈ done ++ pre, ¬ g.answers key)
    (hd : FieldsDistinct (plainFields (pre ++ [f]))) (fuel : Nat) :
    (visitFields deny (done ++ (pre ++ f :: post)) (pre.length + 1 + (fuel + 1))
        (vs.map some ++ (pre ++ f :: post).map fun _ => none)).run t
        (pre.map (·.name) ++ f.name :: key :: keys)
      = Prog.bind (deFields t (plainFields (pre ++ [f]))) fun _ =>
          .done (.err (.message ("duplicate field `" ++ f.name ++ "`"))) := by
  induction pre generalizing done vs with
  | nil =>
    rw [plainFields, List.nil_append, List.map_cons, FieldsDistinct] at hd
    rw [List.map_nil, List.nil_append, List.nil_append, List.length_nil,
      show 0 + 1 + (fuel + 1) = (fuel + 1) + 1 from by omega, List.map_cons,
      run_visitFields_step t deny done post f vs hl (keysApart_middle hn), run_implOf t f.ty hd.1,
      plainFields, List.nil_append, List.map_cons, deFields, Prog.bind_eq, Prog.bind_assoc]
    congr; funext v
    rw [run_visitFields_again t deny done post f key keys _ v
      (by rw [List.getElem?_append_left (by simp [hl])]; simp [← hl]) hk (by simpa using hp)]
    rfl
  | cons g pre ih =>
    rw [plainFields, List.cons_append, List.map_cons, FieldsDistinct] at hd
    rw [List.map_cons, List.cons_append, List.cons_append, List.map_cons, List.length_cons,
      show pre.length + 1 + 1 + (fuel + 1) = (pre.length + 1 + (fuel + 1)) + 1 from by omega,
      run_visitFields_step t deny done (pre ++ f :: post) g vs hl (keysApart_middle hn),
      run_implOf t g.ty hd.1, plainFields, List.cons_append, List.map_cons, deFields,
      Prog.bind_eq, Prog.bind_assoc]
    congr; funext v
    have := ih (done ++ [g]) (vs ++ [v]) (by simp [hl]) (by simpa using hn) (by simpa using hp) hd.2
    rw [List.append_assoc, List.singleton_append] at this
    rw [this, Prog.bind_eq, Prog.bind_assoc]
    rfl

/-! ## `other` -/

/-- Enum with an `other` variant: reading the index, then the variant. -/
theorem run_otherEnum (t : Target) (name : String) (vs : List (String × VTy)) (other : UInt16)
    (ho : other.toNat < vs.length) (hd : VariantsDistinct vs) :
    (otherEnum name vs other).run t = Prog.bind (io decodeU16) fun i =>
      if i.toNat < vs.length then deVariant t name i i.toNat vs
      else deVariant t name other other.toNat vs := by
  rw [otherEnum, Impl.run, Impl.run, Impl.run, deU16, Prog.bind_assoc]
  congr; funext i
  rw [Impl.run, Prog.bind]
  by_cases h : i.toNat < vs.length
  · rw [if_pos h, if_pos h, run_implVariant t name i i.toNat vs hd h]
  · rw [if_neg h, if_neg h, run_implVariant t name other other.toNat vs hd ho]

end Dlhn
