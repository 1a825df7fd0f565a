import Verif.Spec.Writers
import Verif.Spec.Wire
import Verif.Proof.Sends
/-!
# Counting calls of `write`
-/
namespace Dlhn

open Spec

/-- At most so many calls of `write`. -/
abbrev AtMostCalls {ε : Type} (p : WProg ε) (n : Nat) : Prop := (writes p).length ≤ n

theorem AtMostCalls.andThen {p q : WProg SerErr} {a b : Nat} (hp : AtMostCalls p a)
    (hq : AtMostCalls q b) :
    AtMostCalls (p.andThen q) (a + b) := by
  have key : (writes (p.andThen q)).length ≤ (writes p).length + (writes q).length := by
    clear hp hq
    induction p with
    | done o =>
      cases o with
      | ok u => cases u; simp [WProg.andThen, writes, sends]
      | err e => simp [WProg.andThen, writes, sends]
      | panic e => simp [WProg.andThen, writes, sends]
    | writeAll bs f k ih =>
      simp only [writes, WProg.andThen, sends, List.filter_cons] at ih ⊢
      split
      · simp only [List.length_cons]; omega
      · exact ih
  exact Nat.le_trans key (Nat.add_le_add hp hq)

theorem AtMostCalls.mono {ε : Type} {p : WProg ε} {a b : Nat} (h : AtMostCalls p a) (hab : a ≤ b) :
    AtMostCalls p b := Nat.le_trans h hab

theorem calls_emit (bs : List UInt8) : AtMostCalls (Ser.emit bs) 1 := by
  rw [AtMostCalls, writes]
  exact Nat.le_trans (List.length_filter_le _ _) (Nat.le_refl _)

theorem calls_skip {ε : Type} (n : Nat) : AtMostCalls (.skip : WProg ε) n := by
  rw [AtMostCalls]; exact Nat.zero_le _

theorem addBound_split {a b : Option Nat} {n : Nat} (h : addBound a b = some n) :
    ∃ x y, a = some x ∧ b = some y ∧ n = x + y := by
  cases a <;> cases b <;> simp [addBound] at h
  exact ⟨_, _, rfl, rfl, h.symm⟩

theorem maxBound_split {a b : Option Nat} {n : Nat} (h : maxBound a b = some n) :
    ∃ x y, a = some x ∧ b = some y ∧ x ≤ n ∧ y ≤ n := by
  cases a <;> cases b <;> simp [maxBound] at h
  exact ⟨_, _, rfl, rfl, by omega, by omega⟩

theorem calls_serAll {n : Nat} (vs : List Val) (h : ∀ v ∈ vs, AtMostCalls (Ser.ser v) 0) :
    AtMostCalls (Ser.serAll vs) n := by
  suffices h : AtMostCalls (Ser.serAll vs) 0 from h.mono (Nat.zero_le _)
  induction vs with
  | nil => rw [Ser.serAll]; exact calls_skip _
  | cons v vs ih =>
    rw [Ser.serAll]
    exact (h v List.mem_cons_self).andThen (ih fun u hu => h u (List.mem_cons_of_mem _ hu))

mutual
theorem calls_ser (t : Target) : (ty : Ty) → (n : Nat) → maxWrites ty = some n → (v : Val) →
    Has t ty v → AtMostCalls (Ser.ser v) n
  | .bool, n, hn, v, h => by
    rw [Has] at h; obtain ⟨x, rfl⟩ := h; cases hn
    rw [Ser.ser, Ser.serBool]; split <;> exact calls_emit _
  | .i8, n, hn, v, h | .i16, n, hn, v, h | .i32, n, hn, v, h | .i64, n, hn, v, h
  | .u8, n, hn, v, h | .u16, n, hn, v, h | .u32, n, hn, v, h | .u64, n, hn, v, h
  | .f32, n, hn, v, h | .f64, n, hn, v, h => by
    rw [Has] at h; obtain ⟨x, rfl⟩ := h; cases hn
    rw [Ser.ser]; exact calls_emit _
  | .i128, n, hn, v, h | .u128, n, hn, v, h | .str, n, hn, v, h | .bytes, n, hn, v, h
  | .any, n, hn, v, h | .ignoredAny, n, hn, v, h => by cases hn
  | .char, n, hn, v, h => by
    rw [Has] at h; obtain ⟨x, rfl⟩ := h; cases hn
    rw [Ser.ser]; exact (calls_emit _).andThen (calls_emit _)
  | .string, n, hn, v, h | .byteBuf, n, hn, v, h => by
    rw [Has] at h; obtain ⟨x, rfl, -⟩ := h; cases hn
    rw [Ser.ser]; exact (calls_emit _).andThen (calls_emit _)
  | .unit, n, hn, v, h | .unitStruct _, n, hn, v, h => by
    rw [Has] at h; subst h
    rw [Ser.ser]; exact calls_skip _
  | .option ty, n, hn, v, h => by
    rw [maxWrites] at hn
    obtain ⟨x, y, hx, hy, rfl⟩ := addBound_split hn
    cases hx
    rw [Has] at h
    rcases h with rfl | ⟨w, rfl, hw⟩
    · rw [Ser.ser]; exact (calls_emit _).mono (by omega)
    · rw [Ser.ser]; exact (calls_emit _).andThen (calls_ser t ty y hy w hw)
  | .newtypeStruct name ty, n, hn, v, h => by
    rw [maxWrites] at hn
    rw [Has] at h
    obtain ⟨w, rfl, hw⟩ := h
    rw [Ser.ser]; exact calls_ser t ty n hn w hw
  | .seq ty, n, hn, v, h => by
    rw [maxWrites] at hn
    split at hn
    · rename_i h0
      cases hn
      rw [Has] at h
      obtain ⟨vs, rfl, -, hv⟩ := h
      rw [Ser.ser, Ser.serHint, Ser.serLen]
      exact (calls_emit _).andThen (b := 0)
        (calls_serAll vs fun w hw => calls_ser t ty 0 h0 w (hv w hw))
    · cases hn
  | .tuple ts, n, hn, v, h => by
    rw [maxWrites] at hn
    rw [Has] at h
    obtain ⟨vs, rfl, hv⟩ := h
    rw [Ser.ser]; exact calls_all t ts n hn vs hv
  | .tupleStruct name ts, n, hn, v, h => by
    rw [maxWrites] at hn
    rw [Has] at h
    obtain ⟨vs, rfl, hv⟩ := h
    rw [Ser.ser]; exact calls_all t ts n hn vs hv
  | .map kt vt, n, hn, v, h => by cases hn
  | .struct name fs, n, hn, v, h => by
    rw [maxWrites] at hn
    rw [Has] at h
    obtain ⟨vs, rfl, hv⟩ := h
    rw [Ser.ser]; exact calls_fields t fs n hn vs hv
  | .enum name vs, n, hn, v, h => by
    rw [maxWrites] at hn
    obtain ⟨x, y, hx, hy, rfl⟩ := addBound_split hn
    cases hx
    rw [Has] at h
    exact calls_variants t name 0 vs y hy v h
theorem calls_all (t : Target) : (ts : List Ty) → (n : Nat) → maxWritesAll ts = some n →
    (vs : List Val) → HasAll t ts vs → AtMostCalls (Ser.serAll vs) n
  | [], n, hn, vs, h => by
    rw [HasAll] at h; subst h; rw [Ser.serAll]; exact calls_skip _
  | ty :: ts, n, hn, vs, h => by
    rw [maxWritesAll] at hn
    obtain ⟨x, y, hx, hy, rfl⟩ := addBound_split hn
    rw [HasAll] at h
    obtain ⟨w, ws, rfl, h1, h2⟩ := h
    rw [Ser.serAll]; exact (calls_ser t ty x hx w h1).andThen (calls_all t ts y hy ws h2)
theorem calls_fields (t : Target) : (fs : List (String × Ty)) → (n : Nat) →
    maxWritesFields fs = some n → (vs : List (String × Val)) → HasFields t fs vs →
    AtMostCalls (Ser.serFields vs) n
  | [], n, hn, vs, h => by
    rw [HasFields] at h; subst h; rw [Ser.serFields]; exact calls_skip _
  | (name, ty) :: fs, n, hn, vs, h => by
    rw [maxWritesFields] at hn
    obtain ⟨x, y, hx, hy, rfl⟩ := addBound_split hn
    rw [HasFields] at h
    obtain ⟨w, ws, rfl, h1, h2⟩ := h
    rw [Ser.serFields]; exact (calls_ser t ty x hx w h1).andThen (calls_fields t fs y hy ws h2)
theorem calls_variants (t : Target) (name : String) : (k : Nat) → (vs : List (String × VTy)) →
    (n : Nat) → maxWritesVariants vs = some n → (v : Val) → HasVariant t name k vs v →
    AtMostCalls (Ser.ser v) (1 + n)
  | k, [], n, hn, v, h => by rw [HasVariant] at h; exact h.elim
  | k, (vn, vt) :: vs, n, hn, v, h => by
    rw [maxWritesVariants] at hn
    obtain ⟨x, y, hx, hy, h1, h2⟩ := maxBound_split hn
    rw [HasVariant] at h
    rcases h with h | h
    · exact (calls_payload t name (UInt32.ofNat k) vn vt x hx v h).mono (by omega)
    · exact (calls_variants t name (k + 1) vs y hy v h).mono (by omega)
theorem calls_payload (t : Target) (name : String) (i : UInt32) (vn : String) : (vt : VTy) →
    (n : Nat) → maxWritesPayload vt = some n → (v : Val) → HasPayload t name i vn vt v →
    AtMostCalls (Ser.ser v) (1 + n)
  | .unit, n, hn, v, h => by
    rw [HasPayload] at h; subst h
    rw [Ser.ser]; exact (calls_emit _).mono (by omega)
  | .newtype ty, n, hn, v, h => by
    rw [maxWritesPayload] at hn
    rw [HasPayload] at h; obtain ⟨w, rfl, hw⟩ := h
    rw [Ser.ser]; exact (calls_emit _).andThen (calls_ser t ty n hn w hw)
  | .tuple ts, n, hn, v, h => by
    rw [maxWritesPayload] at hn
    rw [HasPayload] at h; obtain ⟨w, rfl, hw⟩ := h
    rw [Ser.ser]; exact (calls_emit _).andThen (calls_all t ts n hn w hw)
  | .struct fs, n, hn, v, h => by
    rw [maxWritesPayload] at hn
    rw [HasPayload] at h; obtain ⟨w, rfl, hw⟩ := h
    rw [Ser.ser]; exact (calls_emit _).andThen (calls_fields t fs n hn w hw)
end

end Dlhn

namespace Dlhn

open Spec

/-! ## Interleaving -/

theorem Spec.Interleaves.append {β : Type} {ls ls' ls'' : List (List β)} {vs ws : List β}
    (h : Interleaves ls vs ls') (h' : Interleaves ls' ws ls'') : Interleaves ls (vs ++ ws) ls'' := by
  induction h with
  | stop => exact h'
  | take i hi more ih => exact .take i hi (ih h')

/-- Elements that stand for others. -/
theorem Spec.Interleaves.of_map {α β : Type} {f : α → β} {ls ls' : List (List β)} {xs : List β}
    (h : Interleaves ls xs ls') (as : List (List α)) (ha : ls = as.map (·.map f)) :
    ∃ vs as', Interleaves as vs as' ∧ xs = vs.map f ∧ ls' = as'.map (·.map f) := by
  induction h generalizing as with
  | stop => exact ⟨[], as, .stop, rfl, ha⟩
  | @take ls ls' v l xs i hi more ih =>
    subst ha
    rw [List.getElem?_map] at hi
    cases hl : as[i]? with
    | none => rw [hl] at hi; cases hi
    | some l' =>
      rw [hl] at hi
      cases l' with
      | nil => cases hi
      | cons a l' =>
        cases hi
        obtain ⟨vs, as', h1, h2, h3⟩ := ih (as.set i l') (by rw [List.map_set])
        exact ⟨a :: vs, as', .take i hl h1, by rw [h2]; rfl, h3⟩

theorem Spec.Interleaves.mem {β : Type} {ls ls' : List (List β)} {vs : List β}
    (h : Interleaves ls vs ls') : ∀ v ∈ vs, ∃ l ∈ ls, v ∈ l := by
  induction h with
  | stop => intro v hv; cases hv
  | @take ls ls' v l vs i hi more ih =>
    intro w hw
    rcases List.mem_cons.mp hw with rfl | hw
    · exact ⟨_, List.mem_of_getElem? hi, List.mem_cons_self⟩
    · obtain ⟨m, hm, hwm⟩ := ih w hw
      rcases List.mem_or_eq_of_mem_set hm with hm | rfl
      · exact ⟨m, hm, hwm⟩
      · exact ⟨_, List.mem_of_getElem? hi, List.mem_cons_of_mem _ hwm⟩

/-- From each sequence, what was taken is its beginning, in its order. -/
theorem Spec.Interleaves.sublist {β : Type} {ls ls' : List (List β)} {vs : List β}
    (h : Interleaves ls vs ls') :
    ls'.length = ls.length ∧ ∀ (i : Nat) (l : List β), ls[i]? = some l →
      ∃ a b : List β, l = a ++ b ∧ a.Sublist vs ∧ ls'[i]? = some b := by
  induction h with
  | stop => exact ⟨rfl, fun i l hl => ⟨[], l, rfl, .slnil, hl⟩⟩
  | @take ls ls' v l vs i hi more ih =>
    refine ⟨by rw [ih.1, List.length_set], fun j m hm => ?_⟩
    by_cases hij : i = j
    · subst hij
      rw [hi] at hm; cases hm
      have hlt : i < ls.length := (List.getElem?_eq_some_iff.mp hi).1
      obtain ⟨a, b, h1, h2, h3⟩ := ih.2 i l (by rw [List.getElem?_set_self hlt])
      exact ⟨v :: a, b, by rw [h1]; rfl, h2.cons_cons v, h3⟩
    · obtain ⟨a, b, h1, h2, h3⟩ := ih.2 j m (by rw [List.getElem?_set_ne hij]; exact hm)
      exact ⟨a, b, h1, h2.cons v, h3⟩

theorem perm_set {β : Type} {v : β} {l : List β} : ∀ (ls : List (List β)) (i : Nat),
    ls[i]? = some (v :: l) → ls.flatten.Perm (v :: (ls.set i l).flatten)
  | [], i, h => by simp at h
  | m :: ls, 0, h => by cases h; exact .refl _
  | m :: ls, i + 1, h => by
    have ih := perm_set ls i h
    rw [List.set_cons_succ, List.flatten_cons, List.flatten_cons]
    exact (List.Perm.append_left m ih).trans List.perm_middle

/-- Nothing is lost or repeated. -/
theorem Spec.Interleaves.perm {β : Type} {ls ls' : List (List β)} {vs : List β}
    (h : Interleaves ls vs ls') : ls.flatten.Perm (vs ++ ls'.flatten) := by
  induction h with
  | stop => exact .refl _
  | @take ls ls' v l vs i hi more ih => exact (perm_set ls i hi).trans (ih.cons v)

theorem Spec.Interleaves.left_mem {β : Type} {ls ls' : List (List β)} {vs : List β}
    (h : Interleaves ls vs ls') : ∀ l ∈ ls', ∀ v ∈ l, ∃ m ∈ ls, v ∈ m := by
  intro l hl v hv
  have h1 : v ∈ ls.flatten := h.perm.mem_iff.mpr
    (List.mem_append.mpr (.inr (List.mem_flatten.mpr ⟨l, hl, hv⟩)))
  exact List.mem_flatten.mp h1

theorem exists_of_flatten {β : Type} {f : β → List UInt8} {vs : List β}
    (h : (vs.map f).flatten ≠ []) : ∃ v ∈ vs, f v ≠ [] := by
  apply Classical.byContradiction
  intro hn
  refine h (List.flatten_eq_nil_iff.mpr fun l hl => ?_)
  obtain ⟨v, hv, rfl⟩ := List.mem_map.mp hl
  exact Classical.byContradiction fun hne => hn ⟨v, hv, hne⟩

theorem flatten_writes {ε : Type} (p : WProg ε) : (writes p).flatten = p.exec.1 := by
  induction p with
  | done o => rfl
  | writeAll bs f k ih =>
    rw [writes] at ih ⊢
    rw [sends, List.filter_cons, WProg.exec]
    split
    · rw [List.flatten_cons, ih]
    · rename_i hb
      have : bs = [] := by simpa using hb
      rw [this, ih]; rfl

/-- One call each. -/
theorem writes_single {p : WProg SerErr} (h : AtMostCalls p 1) (hne : p.exec.1 ≠ []) :
    writes p = [p.exec.1] := by
  have hf := flatten_writes p
  rw [← hf] at hne ⊢
  rw [AtMostCalls] at h
  match hw : writes p with
  | [] => rw [hw] at hne; exact absurd rfl hne
  | [x] => simp
  | x :: y :: l => rw [hw] at h; simp at h

theorem writes_andThen {p q : WProg SerErr} (h : p.exec.2 = .ok ()) :
    writes (p.andThen q) = writes p ++ writes q := by
  induction p with
  | done o =>
    have : o = .ok () := h
    subst this; rfl
  | writeAll bs f k ih =>
    have ih := ih h
    simp only [writes, WProg.andThen, sends, List.filter_cons] at ih ⊢
    split
    · rw [ih]; rfl
    · exact ih

end Dlhn
