import Verif.Spec.Readers
import Verif.Proof.De
/-!
# Lemmas on several readers of one stream
-/
namespace Dlhn.Spec

variable {ε α β : Type}

theorem dealt_nil (vs : List α) (i : Nat) : dealt vs [] i = [] := by simp [dealt]

theorem zip_snoc : (vs : List α) → (who : List Nat) → (i : Nat) → (v : α) →
    vs[who.length]? = some v → vs.zip (who ++ [i]) = vs.zip who ++ [(v, i)]
  | [], who, i, v, h => by simp at h
  | w :: vs, [], i, v, h => by simp at h; simp [h]
  | w :: vs, j :: who, i, v, h => by
    simp at h
    simp [zip_snoc vs who i v h]

theorem dealt_snoc (vs : List α) (who : List Nat) (i j : Nat) (v : α)
    (h : vs[who.length]? = some v) :
    dealt vs (who ++ [i]) j = dealt vs who j ++ if i = j then [v] else [] := by
  unfold dealt
  rw [zip_snoc vs who i v h]
  by_cases hij : i = j <;> simp [hij]

/-- What every reader has is what was dealt to it, but for the value it is about to hand out. -/
structure DealtOut (p : Prog ε α) (end_ : ε) (enc : β → List UInt8) (back : β → α)
    (vs : List β) (k : Nat) (s : Sharing ε α) (who : List Nat) : Prop where
  len : s.1.length = k
  few : who.length ≤ vs.length
  one : ∀ i ∈ who, i < k
  rest : s.2 = ((vs.drop who.length).map enc).flatten
  each : ∀ (i : Nat) r, s.1[i]? = some r →
    (r.1 = p ∧ r.2 = dealt (vs.map back) who i) ∨
      (∃ a, r.1 = .done (.ok a) ∧ r.2 ++ [a] = dealt (vs.map back) who i) ∨
      (r.1 = .done (.err end_) ∧ who.length = vs.length ∧ r.2 = dealt (vs.map back) who i)

theorem dealtOut {t : Target} {n : Nat} {onErr : IoErr → ε} {d : Vector UInt8 n → Outcome ε α}
    {p : Prog ε α} (hp : p = .readExact n onErr fun b => .done (d b)) (hn : 0 < n)
    {enc : β → List UInt8} {back : β → α} {vs : List β} (hlen : ∀ v ∈ vs, (enc v).length = n)
    (hd : ∀ v ∈ vs, ∀ more : List UInt8, ∀ h : n ≤ (enc v ++ more).length,
      d (takeVec (enc v ++ more) h) = .ok (back v))
    {k : Nat} {s : Sharing ε α} (h : Shared t p (readers p k, (vs.map enc).flatten) s) :
    ∃ who, DealtOut p (onErr .unexpectedEof) enc back vs k s who := by
  generalize hs0 : (readers p k, (vs.map enc).flatten) = s0 at h
  induction h with
  | start =>
    subst hs0
    refine ⟨[], by simp [readers], by simp, by simp, by simp, ?_⟩
    intro i r hr
    simp [readers, List.getElem?_replicate] at hr
    exact .inl ⟨by rw [← hr.2], by rw [← hr.2, dealt_nil]⟩
  | step _ more ih =>
    obtain ⟨who, hw⟩ := ih
    have keep : ∀ (rs : List (Prog ε α × List α)) (i : Nat) (x : Prog ε α × List α)
        (j : Nat) r, (rs.set i x)[j]? = some r → (j = i ∧ r = x) ∨ (j ≠ i ∧ rs[j]? = some r) := by
      intro rs i x j r hr
      rw [List.getElem?_set] at hr
      by_cases hij : i = j
      · rw [if_pos hij] at hr
        split at hr
        · exact .inl ⟨hij.symm, by simpa using hr.symm⟩
        · simp at hr
      · rw [if_neg hij] at hr
        exact .inr ⟨fun h => hij h.symm, hr⟩
    cases more with
    | @call rs bs got m oe kk i hi hm =>
      have hik : i < k := by
        have := (List.getElem?_eq_some_iff.mp hi).1
        have := hw.len
        dsimp only at this
        omega
      have hrest := hw.rest
      dsimp only at hrest
      rcases hw.each i _ hi with ⟨h1, h2⟩ | ⟨a, h1, _⟩ | ⟨h1, _⟩
      · rw [hp] at h1
        dsimp only at h1
        cases h1
        dsimp only at h2
        -- a value is left
        cases hv : vs[who.length]? with
        | none =>
          rw [List.drop_eq_nil_of_le (by simpa using hv)] at hrest
          subst hrest
          simp at hm
          omega
        | some v =>
          obtain ⟨hlt, hve⟩ := List.getElem?_eq_some_iff.mp hv
          have hmem : v ∈ vs := List.mem_of_getElem? hv
          rw [List.drop_eq_getElem_cons hlt, hve, List.map_cons, List.flatten_cons] at hrest
          subst hrest
          refine ⟨who ++ [i], by simpa using hw.len, by simp; omega, ?_, ?_, ?_⟩
          · intro j hj
            rcases List.mem_append.mp hj with h | h
            · exact hw.one j h
            · simp at h
              omega
          · dsimp only
            rw [List.drop_append_of_le_length (by rw [hlen v hmem]; exact Nat.le_refl _),
              List.drop_eq_nil_of_le (by rw [hlen v hmem]; exact Nat.le_refl _)]
            simp
          · intro j r hr
            rcases keep _ _ _ _ _ hr with ⟨rfl, rfl⟩ | ⟨hji, hr⟩
            · refine .inr (.inl ⟨back v, ?_, ?_⟩)
              · dsimp only
                rw [hd v hmem]
              · rw [dealt_snoc (vs.map back) who j j (back v) (by rw [List.getElem?_map, hv]; rfl), if_pos rfl, ← h2]
            · rw [dealt_snoc (vs.map back) who i j (back v) (by rw [List.getElem?_map, hv]; rfl), if_neg (Ne.symm hji), List.append_nil]
              rcases hw.each j _ hr with h | h | ⟨h3, h4, h5⟩
              · exact .inl h
              · exact .inr (.inl h)
              · omega
      · cases h1
      · cases h1
    | @short rs bs got m oe kk i hi hm =>
      have hrest := hw.rest
      dsimp only at hrest
      rcases hw.each i _ hi with ⟨h1, h2⟩ | ⟨a, h1, _⟩ | ⟨h1, _⟩
      · rw [hp] at h1
        dsimp only at h1
        cases h1
        dsimp only at h2
        have hfull : who.length = vs.length := by
          cases hv : vs[who.length]? with
          | none =>
            have := hw.few
            simp at hv
            omega
          | some v =>
            obtain ⟨hlt, hve⟩ := List.getElem?_eq_some_iff.mp hv
            rw [List.drop_eq_getElem_cons hlt, hve, List.map_cons, List.flatten_cons] at hrest
            subst hrest
            rw [List.length_append, hlen v (List.mem_of_getElem? hv)] at hm
            omega
        refine ⟨who, by simpa using hw.len, hw.few, hw.one, ?_, ?_⟩
        · rw [List.drop_eq_nil_of_le (by omega)]
          rfl
        · intro j r hr
          rcases keep _ _ _ _ _ hr with ⟨rfl, rfl⟩ | ⟨hji, hr⟩
          · exact .inr (.inr ⟨rfl, hfull, h2⟩)
          · exact hw.each j _ hr
      · cases h1
      · cases h1
    | @upTo rs bs got m oe kk i hi =>
      rcases hw.each i _ hi with ⟨h1, h2⟩ | ⟨a, h1, _⟩ | ⟨h1, _⟩
      · rw [hp] at h1
        cases h1
      · cases h1
      · cases h1
    | @alloc rs bs got m kk i hi hm =>
      rcases hw.each i _ hi with ⟨h1, h2⟩ | ⟨a, h1, _⟩ | ⟨h1, _⟩
      · rw [hp] at h1
        cases h1
      · cases h1
      · cases h1
    | @value rs bs got a i hi =>
      refine ⟨who, by simpa using hw.len, hw.few, hw.one, hw.rest, ?_⟩
      intro j r hr
      rcases keep _ _ _ _ _ hr with ⟨rfl, rfl⟩ | ⟨hji, hr⟩
      · rcases hw.each j _ hi with ⟨h1, h2⟩ | ⟨b, h1, h2⟩ | ⟨h1, _⟩
        · rw [hp] at h1
          cases h1
        · dsimp only at h1 h2
          cases h1
          exact .inl ⟨rfl, h2⟩
        · cases h1
      · exact hw.each j _ hr

/-- The types of `oneCall` are read by one call. -/
theorem oneCall_read (t : Target) : (ty : Ty) → (n : Nat) → oneCall ty = some n →
    ∃ d : Vector UInt8 n → Outcome DeErr Val, De.de t ty = .readExact n (fun _ => DeErr.read) fun b => .done (d b)
  | .bool, n, h => by
    simp [oneCall] at h
    subst h
    refine ⟨fun b => match b[0].toNat with
      | 0 => .ok (.bool false) | 1 => .ok (.bool true) | _ => .err .read, ?_⟩
    simp only [De.de, De.deBool, De.readBytes, bind, Prog.bind, pure, Prog.pure]
    congr 1
    funext b
    generalize b[0].toNat = x
    rcases x with _ | _ | x <;> rfl
  | .u8, n, h => by
    simp [oneCall] at h
    subst h
    exact ⟨fun b => .ok (.u8 b[0]), rfl⟩
  | .i8, n, h => by
    simp [oneCall] at h
    subst h
    exact ⟨fun b => .ok (.i8 b[0].toInt8), rfl⟩
  | .f32, n, h => by
    simp [oneCall] at h
    subst h
    exact ⟨_, rfl⟩
  | .f64, n, h => by
    simp [oneCall] at h
    subst h
    exact ⟨_, rfl⟩
  | .newtypeStruct name ty, n, h => by
    simp [oneCall] at h
    obtain ⟨d, hd⟩ := oneCall_read t ty n h
    refine ⟨fun b => (d b).map (.newtypeStruct name), ?_⟩
    simp only [De.de, hd, bind, Prog.bind]
    congr 1
    funext b
    cases d b <;> rfl
  | .i16, n, h | .i32, n, h | .i64, n, h | .i128, n, h | .u16, n, h | .u32, n, h | .u64, n, h
  | .u128, n, h | .char, n, h | .string, n, h | .byteBuf, n, h | .str, n, h | .bytes, n, h
  | .any, n, h | .ignoredAny, n, h | .option _, n, h | .unit, n, h | .unitStruct _, n, h
  | .seq _, n, h | .tuple _, n, h | .tupleStruct _ _, n, h | .map _ _, n, h | .struct _ _, n, h
  | .enum _ _, n, h => by simp [oneCall] at h

end Dlhn.Spec
