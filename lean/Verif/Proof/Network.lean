import Verif.Spec.Network
import Verif.Proof.DeriveAgree
/-!
# Programs connected by pipes

Steps of one byte are determined by who takes them, and steps of different programs commute. So
all schedules that come to rest do so in the same state after the same number of bytes.
-/
namespace Dlhn

open Spec hiding variantFields

section setAt
universe u
variable {α : Type u}

theorem setAt_same (f : Nat → α) (i : Nat) (x : α) : setAt f i x i = x := by simp [setAt]

theorem setAt_other (f : Nat → α) {i j : Nat} (x : α) (h : j ≠ i) : setAt f i x j = f j := by
  simp [setAt, h]

theorem setAt_comm (f : Nat → α) {i j : Nat} (x y : α) (h : i ≠ j) :
    setAt (setAt f i x) j y = setAt (setAt f j y) i x := by
  funext k
  simp only [setAt]
  split <;> split <;> first | rfl | (exfalso; omega)

theorem setAt_setAt (f : Nat → α) (i : Nat) (x y : α) : setAt (setAt f i x) i y = setAt f i y := by
  funext k
  simp only [setAt]
  split <;> rfl

theorem setAt_self (f : Nat → α) (i : Nat) : setAt f i (f i) = f := by
  funext k
  simp only [setAt]
  split
  · rename_i h; rw [h]
  · rfl

end setAt

namespace Spec.Net

variable {S : Type}

/-- What a step of one byte does to the pipes. -/
inductive Eff where
  | none
  | put (c : Nat) (b : UInt8)
  | get (c : Nat)

/-- The pipes afterwards. -/
def Eff.apply : Eff → (Nat → List UInt8) → Nat → List UInt8
  | .none, f => f
  | .put c b, f => setAt f c (f c ++ [b])
  | .get c, f => setAt f c ((f c).drop 1)

/-- Program `i` can take a step of at most one byte. -/
inductive Fire (t : Target) (net : Net S) (x : NetState S) (i : Nat) : Eff → Doing S → Prop where
  | alone {d : Doing S} (h : (x.doing i).alone t (net.act i) = some d) : Fire t net x i .none d
  | write {c : Nat} {b : UInt8} {bs : List UInt8} (h : (x.doing i).offers = some (c, b :: bs))
      (hr : HasRoom (net.room c) ((x.pipes c).length + 1)) :
      Fire t net x i (.put c b) ((x.doing i).wrote 1)
  | read {c m : Nat} {b : UInt8} {bs : List UInt8} (h : (x.doing i).needs = some (c, m))
      (hr : x.pipes c = b :: bs) : Fire t net x i (.get c) ((x.doing i).got [b])
  | ended {c m : Nat} (h : (x.doing i).needs = some (c, m)) (he : x.pipes c = [])
      (ho : (x.doing (net.writer c)).Over (net.act (net.writer c))) :
      Fire t net x i .none (x.doing i).ended

/-- The state after such a step. -/
def next (x : NetState S) (i : Nat) (e : Eff) (d : Doing S) : NetState S :=
  ⟨setAt x.doing i d, e.apply x.pipes⟩

/-- Programs use their own pipes. -/
def Uses (net : Net S) (i : Nat) : Doing S → Prop
  | .sending c _ _ => net.writer c = i
  | .receiving c _ _ _ => net.reader c = i
  | _ => True

/-- All of them. -/
def Owned (net : Net S) (x : NetState S) : Prop := ∀ i, net.Uses i (x.doing i)

theorem offers_some {d : Doing S} {c : Nat} {bs : List UInt8} (h : d.offers = some (c, bs)) :
    ∃ (ε : Type) (onErr : IoErr → ε) (k : WProg ε) (next : Except ε Unit → S), bs ≠ [] ∧
      d = .sending c (.writeAll bs onErr k) next := by
  unfold Doing.offers at h
  split at h
  · rename_i c' b bs' onErr k next
    cases h
    exact ⟨_, onErr, k, next, by simp, rfl⟩
  · cases h

theorem needs_some {d : Doing S} {c m : Nat} (h : d.needs = some (c, m)) :
    0 < m ∧ ∃ (ε α : Type) (got : List UInt8) (next : Except ε α → S) (n : Nat) (onErr : IoErr → ε),
      got.length + m = n ∧ ((∃ k, d = .receiving c (.readExact n onErr k) got next) ∨
        ∃ k, d = .receiving c (.takeToEnd n onErr k) got next) := by
  unfold Doing.needs at h
  split at h
  · rename_i c' n onErr k got next
    split at h
    · cases h
      exact ⟨by omega, _, _, got, next, n, onErr, by omega, .inl ⟨k, rfl⟩⟩
    · cases h
  · rename_i c' n onErr k got next
    split at h
    · cases h
      exact ⟨by omega, _, _, got, next, n, onErr, by omega, .inr ⟨k, rfl⟩⟩
    · cases h
  · cases h

theorem offers_pipe {net : Net S} {d : Doing S} {i c : Nat} {bs : List UInt8}
    (h : d.offers = some (c, bs)) (hu : net.Uses i d) : net.writer c = i := by
  obtain ⟨ε, onErr, k, next, -, rfl⟩ := offers_some h
  exact hu

theorem needs_pipe {net : Net S} {d : Doing S} {i c m : Nat} (h : d.needs = some (c, m))
    (hu : net.Uses i d) : net.reader c = i := by
  obtain ⟨-, ε, α, got, next, n, onErr, -, ⟨k, rfl⟩ | ⟨k, rfl⟩⟩ := needs_some h <;> exact hu

/-- A program that has ended takes no steps. -/
theorem over_fire {t : Target} {net : Net S} {x : NetState S} {i : Nat} {e : Eff} {d : Doing S}
    (h : Fire t net x i e d) : ¬ (x.doing i).Over (net.act i) := by
  intro ho
  cases h with
  | alone h =>
    cases hd : x.doing i with
    | «at» s =>
      rw [hd] at h ho
      rw [Doing.Over] at ho
      rw [Doing.alone, ho] at h
      cases h
    | panicked => rw [hd] at h; cases h
    | sending c p next => rw [hd] at ho; exact ho
    | receiving c p got next => rw [hd] at ho; exact ho
  | write h hr =>
    obtain ⟨ε, onErr, k, next, -, hd⟩ := offers_some h
    rw [hd] at ho
    exact ho
  | read h hr =>
    obtain ⟨-, ε, α, got, next, n, onErr, -, ⟨k, hd⟩ | ⟨k, hd⟩⟩ := needs_some h <;>
      (rw [hd] at ho; exact ho)
  | ended h he ho' =>
    obtain ⟨-, ε, α, got, next, n, onErr, -, ⟨k, hd⟩ | ⟨k, hd⟩⟩ := needs_some h <;>
      (rw [hd] at ho; exact ho)

/-- The kinds of steps exclude each other. -/
theorem alone_excl {t : Target} {act : S → Act S} {d d' : Doing S} (h : d.alone t act = some d') :
    d.offers = none ∧ d.needs = none := by
  unfold Doing.alone at h
  split at h
  · exact ⟨rfl, rfl⟩
  · exact ⟨rfl, rfl⟩
  · exact ⟨rfl, rfl⟩
  · cases h
  · exact ⟨rfl, rfl⟩
  · split at h
    · rename_i hn
      refine ⟨rfl, ?_⟩
      simp [Doing.needs, hn]
    · cases h
  · split at h
    · rename_i hn
      refine ⟨rfl, ?_⟩
      simp [Doing.needs, hn]
    · cases h
  · exact ⟨rfl, rfl⟩
  · cases h

theorem offers_needs {d : Doing S} {x : Nat × List UInt8} (h : d.offers = some x) :
    d.needs = none := by
  obtain ⟨ε, onErr, k, next, -, rfl⟩ := offers_some (c := x.1) (bs := x.2) h
  rfl

/-- The step of one byte is determined by who takes it. -/
theorem fire_unique {t : Target} {net : Net S} {x : NetState S} {i : Nat} {e e' : Eff}
    {d d' : Doing S} (h : Fire t net x i e d) (h' : Fire t net x i e' d') : e = e' ∧ d = d' := by
  cases h with
  | alone h =>
    obtain ⟨h1, h2⟩ := alone_excl h
    cases h' with
    | alone h' => rw [h] at h'; cases h'; exact ⟨rfl, rfl⟩
    | write h' => rw [h1] at h'; cases h'
    | read h' => rw [h2] at h'; cases h'
    | ended h' => rw [h2] at h'; cases h'
  | write h hr =>
    have h2 := offers_needs h
    cases h' with
    | alone h' => rw [(alone_excl h').1] at h; cases h
    | write h' => rw [h] at h'; cases h'; exact ⟨rfl, rfl⟩
    | read h' => rw [h2] at h'; cases h'
    | ended h' => rw [h2] at h'; cases h'
  | read h hr =>
    cases h' with
    | alone h' => rw [(alone_excl h').2] at h; cases h
    | write h' => rw [offers_needs h'] at h; cases h
    | read h' hr' => rw [h] at h'; cases h'; rw [hr] at hr'; cases hr'; exact ⟨rfl, rfl⟩
    | ended h' he => rw [h] at h'; cases h'; rw [hr] at he; cases he
  | ended h he ho =>
    cases h' with
    | alone h' => rw [(alone_excl h').2] at h; cases h
    | write h' => rw [offers_needs h'] at h; cases h
    | read h' hr' => rw [h] at h'; cases h'; rw [he] at hr'; cases hr'
    | ended h' => exact ⟨rfl, rfl⟩

/-- Which pipe a step uses. -/
theorem fire_pipe {t : Target} {net : Net S} {x : NetState S} (ho : net.Owned x) {i : Nat} {e : Eff}
    {d : Doing S} (h : Fire t net x i e d) :
    (∀ c b, e = .put c b → net.writer c = i) ∧ (∀ c, e = .get c → net.reader c = i ∧ x.pipes c ≠ []) := by
  cases h with
  | alone h => exact ⟨nofun, nofun⟩
  | write h hr => exact ⟨fun c b he => by cases he; exact offers_pipe h (ho i), nofun⟩
  | read h hr =>
    exact ⟨nofun, fun c he => by cases he; exact ⟨needs_pipe h (ho i), by rw [hr]; simp⟩⟩
  | ended h he ho' => exact ⟨nofun, nofun⟩

/-- A step of one program does not hinder another. -/
theorem fire_frame {t : Target} {net : Net S} {x : NetState S} (ho : net.Owned x) {i j : Nat}
    (hij : i ≠ j) {e e' : Eff} {d d' : Doing S} (h : Fire t net x i e d)
    (h' : Fire t net x j e' d') : Fire t net (next x j e' d') i e d := by
  have hd : (next x j e' d').doing i = x.doing i := setAt_other _ _ hij
  obtain ⟨hw, hg⟩ := fire_pipe ho h'
  have hov := over_fire h'
  cases h with
  | alone h => exact .alone (by rw [hd]; exact h)
  | @write c b bs h hr =>
    rw [← hd] at h ⊢
    refine .write h ?_
    intro m hm
    have := hr m hm
    have hc : net.writer c = i := offers_pipe (by rw [hd] at h; exact h) (ho i)
    cases e' with
    | none => exact this
    | put c' b' =>
      have h1 : c ≠ c' := by
        rintro rfl
        exact hij (hc.symm.trans (hw c b' rfl))
      simp only [next, Eff.apply]
      rw [setAt_other _ _ h1]
      exact this
    | get c' =>
      simp only [next, Eff.apply, setAt]
      split
      · rename_i h1
        subst h1
        simp only [List.length_drop]
        omega
      · exact this
  | @read c m b bs h hr =>
    rw [← hd] at h ⊢
    have hc : net.reader c = i := needs_pipe (by rw [hd] at h; exact h) (ho i)
    cases e' with
    | none => exact .read h hr
    | put c' b' =>
      by_cases h1 : c = c'
      · subst h1
        refine .read (bs := bs ++ [b']) h ?_
        simp only [next, Eff.apply]
        rw [setAt_same, hr]
        rfl
      · refine .read h (bs := bs) ?_
        simp only [next, Eff.apply]
        rw [setAt_other _ _ h1]
        exact hr
    | get c' =>
      have h1 : c ≠ c' := by
        rintro rfl
        exact hij (hc.symm.trans (hg c rfl).1)
      refine .read h (bs := bs) ?_
      simp only [next, Eff.apply]
      rw [setAt_other _ _ h1]
      exact hr
  | @ended c m h he hover =>
    rw [← hd] at h ⊢
    have hc : net.reader c = i := needs_pipe (by rw [hd] at h; exact h) (ho i)
    have hcj : net.writer c ≠ j := by
      intro hcj
      rw [hcj] at hover
      exact hov hover
    refine .ended h ?_ ?_
    · cases e' with
      | none => exact he
      | put c' b' =>
        have h1 : c ≠ c' := by
          rintro rfl
          exact hcj (hw c b' rfl)
        simp only [next, Eff.apply]
        rw [setAt_other _ _ h1]
        exact he
      | get c' =>
        have h1 : c ≠ c' := by
          rintro rfl
          exact hij (hc.symm.trans (hg c rfl).1)
        simp only [next, Eff.apply]
        rw [setAt_other _ _ h1]
        exact he
    · have : (next x j e' d').doing (net.writer c) = x.doing (net.writer c) := setAt_other _ _ hcj
      rw [this]
      exact hover

/-- Effects of different programs commute. -/
theorem eff_comm {t : Target} {net : Net S} {x : NetState S} (ho : net.Owned x) {i j : Nat}
    (hij : i ≠ j) {e e' : Eff} {d d' : Doing S} (h : Fire t net x i e d)
    (h' : Fire t net x j e' d') : e.apply (e'.apply x.pipes) = e'.apply (e.apply x.pipes) := by
  obtain ⟨hw, hg⟩ := fire_pipe ho h
  obtain ⟨hw', hg'⟩ := fire_pipe ho h'
  cases e with
  | none => rfl
  | put c b =>
    cases e' with
    | none => rfl
    | put c' b' =>
      have h1 : c ≠ c' := by
        rintro rfl
        exact hij ((hw c b rfl).symm.trans (hw' c b' rfl))
      simp only [Eff.apply]
      rw [setAt_other _ _ h1, setAt_other _ _ (Ne.symm h1), setAt_comm _ _ _ h1]
    | get c' =>
      by_cases h1 : c = c'
      · subst h1
        simp only [Eff.apply]
        rw [setAt_same, setAt_same, setAt_setAt, setAt_setAt]
        have := (hg' c rfl).2
        cases hc : x.pipes c with
        | nil => exact absurd hc this
        | cons a as => rfl
      · simp only [Eff.apply]
        rw [setAt_other _ _ h1, setAt_other _ _ (Ne.symm h1), setAt_comm _ _ _ h1]
  | get c =>
    cases e' with
    | none => rfl
    | put c' b' =>
      by_cases h1 : c = c'
      · subst h1
        simp only [Eff.apply]
        rw [setAt_same, setAt_same, setAt_setAt, setAt_setAt]
        have := (hg c rfl).2
        cases hc : x.pipes c with
        | nil => exact absurd hc this
        | cons a as => rfl
      · simp only [Eff.apply]
        rw [setAt_other _ _ h1, setAt_other _ _ (Ne.symm h1), setAt_comm _ _ _ h1]
    | get c' =>
      have h1 : c ≠ c' := by
        rintro rfl
        exact hij ((hg c rfl).1.symm.trans (hg' c rfl).1)
      simp only [Eff.apply]
      rw [setAt_other _ _ h1, setAt_other _ _ (Ne.symm h1), setAt_comm _ _ _ h1]

/-- Steps of at most one byte. -/
def Byte (t : Target) (net : Net S) (x y : NetState S) : Prop :=
  ∃ i e d, Fire t net x i e d ∧ y = next x i e d

/-- A number of them; the first one first. -/
inductive Bytes (t : Target) (net : Net S) : Nat → NetState S → NetState S → Prop where
  | nil {x : NetState S} : Bytes t net 0 x x
  | cons {n : Nat} {x y z : NetState S} (h : Byte t net x y) (more : Bytes t net n y z) :
      Bytes t net (n + 1) x z

theorem after_uses (net : Net S) (i : Nat) {ε α : Type} (next : Except ε α → S) (o : Outcome ε α) :
    net.Uses i (Doing.after next o) := by
  cases o <;> exact trivial

theorem fire_uses {t : Target} {net : Net S} (hn : net.Wired) {x : NetState S} (ho : net.Owned x)
    {i : Nat} {e : Eff} {d : Doing S} (h : Fire t net x i e d) : net.Uses i d := by
  have hu := ho i
  cases h with
  | alone h =>
    cases hd : x.doing i with
    | «at» s =>
      rw [hd, Doing.alone] at h
      have := hn i s
      split at h
      · cases h
      · rename_i heq
        rw [heq] at this
        cases h
        exact this
      · rename_i heq
        rw [heq] at this
        cases h
        exact this
    | panicked => rw [hd] at h; cases h
    | sending c p next =>
      rw [hd] at h hu
      cases p with
      | done o => cases h; exact after_uses _ _ _ _
      | writeAll bs onErr k =>
        cases bs with
        | nil => cases h; exact hu
        | cons b bs => cases h
    | receiving c p got next =>
      rw [hd] at h hu
      cases p with
      | done o => cases h; exact after_uses _ _ _ _
      | readExact n onErr k =>
        rw [Doing.alone] at h
        split at h
        · cases h; exact hu
        · cases h
      | takeToEnd n onErr k =>
        rw [Doing.alone] at h
        split at h
        · cases h; exact hu
        · cases h
      | alloc n k =>
        rw [Doing.alone] at h
        split at h
        · cases h; exact trivial
        · cases h; exact hu
  | write h hr =>
    obtain ⟨ε, onErr, k, next, -, hd⟩ := offers_some h
    rw [hd] at hu ⊢
    exact hu
  | read h hr =>
    obtain ⟨-, ε, α, got, next, n, onErr, -, ⟨k, hd⟩ | ⟨k, hd⟩⟩ := needs_some h <;>
      (rw [hd] at hu ⊢; exact hu)
  | ended h he ho' =>
    obtain ⟨-, ε, α, got, next, n, onErr, -, ⟨k, hd⟩ | ⟨k, hd⟩⟩ := needs_some h
    · rw [hd]; exact trivial
    · rw [hd] at hu ⊢; exact hu

theorem byte_owned {t : Target} {net : Net S} (hn : net.Wired) {x y : NetState S} (ho : net.Owned x)
    (h : Byte t net x y) : net.Owned y := by
  obtain ⟨i, e, d, hf, rfl⟩ := h
  intro j
  by_cases hj : j = i
  · subst hj
    rw [show (next x j e d).doing j = d from setAt_same _ _ _]
    exact fire_uses hn ho hf
  · rw [show (next x i e d).doing j = x.doing j from setAt_other _ _ hj]
    exact ho j

theorem bytes_owned {t : Target} {net : Net S} (hn : net.Wired) {n : Nat} {x y : NetState S}
    (h : Bytes t net n x y) (ho : net.Owned x) : net.Owned y := by
  induction h with
  | nil => exact ho
  | cons h more ih => exact ih (byte_owned hn ho h)

theorem Bytes.append {t : Target} {net : Net S} {n m : Nat} {x y z : NetState S}
    (h : Bytes t net n x y) (h' : Bytes t net m y z) : Bytes t net (n + m) x z := by
  induction h with
  | nil => rw [Nat.zero_add]; exact h'
  | cons h more ih => rw [Nat.add_right_comm]; exact .cons h (ih h')

/-- Two steps from the same state: the same, or they can be made to meet. -/
theorem diamond {t : Target} {net : Net S} {x y z : NetState S} (ho : net.Owned x)
    (h : Byte t net x y) (h' : Byte t net x z) :
    y = z ∨ ∃ w, Byte t net y w ∧ Byte t net z w := by
  obtain ⟨i, e, d, hf, rfl⟩ := h
  obtain ⟨j, e', d', hf', rfl⟩ := h'
  by_cases hij : i = j
  · subst hij
    obtain ⟨rfl, rfl⟩ := fire_unique hf hf'
    exact .inl rfl
  · refine .inr ⟨next (next x i e d) j e' d', ⟨j, e', d', fire_frame ho (Ne.symm hij) hf' hf, rfl⟩,
      ⟨i, e, d, fire_frame ho hij hf hf', ?_⟩⟩
    simp only [next]
    rw [setAt_comm _ _ _ hij, eff_comm ho hij hf hf']

/-- Nothing can happen. -/
def Quiet (t : Target) (net : Net S) (x : NetState S) : Prop := ∀ y, ¬ Byte t net x y

/-- From a state from which some schedule comes to rest, every step gets one nearer to it. -/
theorem descend {t : Target} {net : Net S} (hn : net.Wired) {n : Nat} :
    ∀ {x z : NetState S}, net.Owned x → Bytes t net n x z → Quiet t net z → ∀ {y},
      Byte t net x y → ∃ m, n = m + 1 ∧ Bytes t net m y z := by
  induction n with
  | zero =>
    intro x z _ h hq y hy
    cases h
    exact absurd hy (hq y)
  | succ n ih =>
    intro x z ho h hq y hy
    cases h with
    | @cons _ _ x1 _ h more =>
    rcases diamond ho h hy with rfl | ⟨w, h1, h2⟩
    · exact ⟨n, rfl, more⟩
    · obtain ⟨m, rfl, hm⟩ := ih (byte_owned hn ho h) more hq h1
      exact ⟨m + 1, rfl, .cons h2 hm⟩

theorem descends {t : Target} {net : Net S} (hn : net.Wired) {n k : Nat} {x y z : NetState S}
    (ho : net.Owned x) (h : Bytes t net n x z) (hq : Quiet t net z) (hy : Bytes t net k x y) :
    k ≤ n ∧ Bytes t net (n - k) y z := by
  induction hy generalizing n with
  | nil => exact ⟨Nat.zero_le _, h⟩
  | cons hs more ih =>
    obtain ⟨m, rfl, hm⟩ := descend hn ho h hq hs
    obtain ⟨h1, h2⟩ := ih (byte_owned hn ho hs) hm
    refine ⟨by omega, ?_⟩
    rw [Nat.add_sub_add_right]
    exact h2

/-- One step and many steps can be made to meet. -/
theorem strip {t : Target} {net : Net S} (hn : net.Wired) {n : Nat} {x y z : NetState S}
    (ho : net.Owned x) (h : Bytes t net n x z) (hy : Byte t net x y) :
    ∃ w m k, Bytes t net m y w ∧ Bytes t net k z w ∧ k ≤ 1 := by
  induction h generalizing y with
  | nil => exact ⟨y, 0, 1, .nil, .cons hy .nil, by omega⟩
  | @cons n x x1 z h more ih =>
    rcases diamond ho h hy with rfl | ⟨w, h1, h2⟩
    · exact ⟨z, n, 0, more, .nil, by omega⟩
    · obtain ⟨v, m, k, h3, h4, h5⟩ := ih (byte_owned hn ho h) h1
      exact ⟨v, m + 1, k, .cons h2 h3, h4, h5⟩

theorem confluent {t : Target} {net : Net S} (hn : net.Wired) {n k : Nat} {x y z : NetState S}
    (ho : net.Owned x) (h : Bytes t net n x y) (h' : Bytes t net k x z) :
    ∃ w m l, Bytes t net m y w ∧ Bytes t net l z w := by
  induction h generalizing z k with
  | nil => exact ⟨z, k, 0, h', .nil⟩
  | cons hs more ih =>
    obtain ⟨v, m, l, h1, h2, -⟩ := strip hn ho h' hs
    obtain ⟨w, m', l', h3, h4⟩ := ih (byte_owned hn ho hs) h1
    exact ⟨w, m', l + l', h3, h2.append h4⟩

/-! ## Larger steps -/

theorem wrote_wrote (d : Doing S) (n m : Nat) : (d.wrote n).wrote m = d.wrote (n + m) := by
  cases d with
  | sending c p next =>
    cases p with
    | done o => rfl
    | writeAll bs onErr k => simp [Doing.wrote, List.drop_drop]
  | _ => rfl

theorem got_got (d : Doing S) (a b : List UInt8) : (d.got a).got b = d.got (a ++ b) := by
  cases d with
  | receiving c p old next => simp [Doing.got]
  | _ => rfl

theorem got_nil (d : Doing S) : d.got [] = d := by
  cases d with
  | receiving c p old next => simp [Doing.got]
  | _ => rfl

theorem wrote_zero (d : Doing S) : d.wrote 0 = d := by
  cases d with
  | sending c p next =>
    cases p with
    | done o => rfl
    | writeAll bs onErr k => simp [Doing.wrote]
  | _ => rfl

/-- Writing several bytes is writing them one by one. -/
theorem write_bytes {t : Target} {net : Net S} (i : Nat) {c : Nat} : ∀ (n : Nat) {x : NetState S}
    {bs : List UInt8}, (x.doing i).offers = some (c, bs) → n ≤ bs.length →
    HasRoom (net.room c) ((x.pipes c).length + n) →
    Bytes t net n x ⟨setAt x.doing i ((x.doing i).wrote n), setAt x.pipes c (x.pipes c ++ bs.take n)⟩ := by
  intro n
  induction n with
  | zero =>
    intro x bs h _ _
    rw [wrote_zero, setAt_self, List.take_zero, List.append_nil, setAt_self]
    exact .nil
  | succ n ih =>
    intro x bs h hl hr
    cases bs with
    | nil => simp at hl
    | cons b bs =>
    have h1 : Fire t net x i (.put c b) ((x.doing i).wrote 1) := by
      refine .write h ?_
      intro m hm
      have := hr m hm
      omega
    refine .cons ⟨i, _, _, h1, rfl⟩ ?_
    by_cases hn : n = 0
    · subst hn
      exact .nil
    · have h2 : ((next x i (.put c b) ((x.doing i).wrote 1)).doing i).offers = some (c, bs) := by
        rw [show (next x i (.put c b) ((x.doing i).wrote 1)).doing i = (x.doing i).wrote 1 from
          setAt_same _ _ _]
        obtain ⟨ε, onErr, k, nx, -, hd⟩ := offers_some h
        rw [hd]
        cases bs with
        | nil =>
          simp only [List.length_cons, List.length_nil] at hl
          omega
        | cons b' bs => rfl
      have h3 := ih (x := next x i (.put c b) ((x.doing i).wrote 1)) h2
        (by simp only [List.length_cons] at hl; omega)
        (by
          intro m hm
          have := hr m hm
          simp only [next, Eff.apply]
          rw [setAt_same, List.length_append, List.length_singleton]
          omega)
      have e1 : setAt (next x i (.put c b) ((x.doing i).wrote 1)).doing i
          (((next x i (.put c b) ((x.doing i).wrote 1)).doing i).wrote n) =
          setAt x.doing i ((x.doing i).wrote (n + 1)) := by
        simp only [next]
        rw [setAt_same, setAt_setAt, wrote_wrote, Nat.add_comm 1 n]
      have e2 : setAt (next x i (.put c b) ((x.doing i).wrote 1)).pipes c
          ((next x i (.put c b) ((x.doing i).wrote 1)).pipes c ++ bs.take n) =
          setAt x.pipes c (x.pipes c ++ (b :: bs).take (n + 1)) := by
        simp only [next, Eff.apply]
        rw [setAt_same, setAt_setAt, List.append_assoc]
        rfl
      rw [e1, e2] at h3
      exact h3

/-- Reading several bytes is reading them one by one. -/
theorem read_bytes {t : Target} {net : Net S} (i : Nat) {c : Nat} : ∀ (n : Nat) {x : NetState S}
    {m : Nat}, (x.doing i).needs = some (c, m) → n ≤ m → n ≤ (x.pipes c).length →
    Bytes t net n x ⟨setAt x.doing i ((x.doing i).got ((x.pipes c).take n)),
      setAt x.pipes c ((x.pipes c).drop n)⟩ := by
  intro n
  induction n with
  | zero =>
    intro x m h _ _
    rw [List.take_zero, got_nil, setAt_self, List.drop_zero, setAt_self]
    exact .nil
  | succ n ih =>
    intro x m h hl hr
    cases hp : x.pipes c with
    | nil => rw [hp] at hr; simp at hr
    | cons b bs =>
    have h1 : Fire t net x i (.get c) ((x.doing i).got [b]) := .read h hp
    refine .cons ⟨i, _, _, h1, rfl⟩ ?_
    by_cases hn : n = 0
    · subst hn
      have e2 : setAt x.pipes c (List.drop (0 + 1) (b :: bs)) = (Eff.get c).apply x.pipes := by
        simp only [Eff.apply]
        rw [hp]
      rw [e2]
      exact .nil
    · have h2 : ((next x i (.get c) ((x.doing i).got [b])).doing i).needs = some (c, m - 1) := by
        rw [show (next x i (.get c) ((x.doing i).got [b])).doing i = (x.doing i).got [b] from
          setAt_same _ _ _]
        obtain ⟨-, ε, α, got, nx, l, onErr, hl', ⟨k, hd⟩ | ⟨k, hd⟩⟩ := needs_some h
        · rw [hd]
          simp only [Doing.got, Doing.needs, List.length_append, List.length_singleton]
          rw [if_pos (by omega)]
          congr 2
          omega
        · rw [hd]
          simp only [Doing.got, Doing.needs, List.length_append, List.length_singleton]
          rw [if_pos (by omega)]
          congr 2
          omega
      have e0 : (next x i (.get c) ((x.doing i).got [b])).pipes c = bs := by
        simp only [next, Eff.apply]
        rw [setAt_same, hp]
        rfl
      have h3 := ih (x := next x i (.get c) ((x.doing i).got [b])) h2 (by omega)
        (by rw [e0]; rw [hp, List.length_cons] at hr; omega)
      rw [e0] at h3
      have e1 : setAt (next x i (.get c) ((x.doing i).got [b])).doing i
          (((next x i (.get c) ((x.doing i).got [b])).doing i).got (bs.take n)) =
          setAt x.doing i ((x.doing i).got ((b :: bs).take (n + 1))) := by
        simp only [next]
        rw [setAt_same, setAt_setAt, got_got]
        rfl
      have e2 : setAt (next x i (.get c) ((x.doing i).got [b])).pipes c (bs.drop n) =
          setAt x.pipes c ((b :: bs).drop (n + 1)) := by
        simp only [next, Eff.apply]
        rw [setAt_setAt]
        rfl
      rw [e1, e2] at h3
      exact h3

/-- A step is a number of steps of at most one byte, but not none. -/
theorem step_bytes {t : Target} {net : Net S} {x y : NetState S} (h : NetStep t net x y) :
    ∃ n, 1 ≤ n ∧ Bytes t net n x y := by
  cases h with
  | alone i h => exact ⟨1, by omega, .cons ⟨i, .none, _, .alone h, rfl⟩ .nil⟩
  | write i n h h1 h2 hr => exact ⟨n, h1, write_bytes i n h h2 hr⟩
  | read i n h h1 h2 hr => exact ⟨n, h1, read_bytes i n h h2 hr⟩
  | ended i h he ho => exact ⟨1, by omega, .cons ⟨i, .none, _, .ended h he ho, rfl⟩ .nil⟩

theorem byte_step {t : Target} {net : Net S} {x y : NetState S} (h : Byte t net x y) :
    NetStep t net x y := by
  obtain ⟨i, e, d, hf, rfl⟩ := h
  cases hf with
  | alone h => exact .alone i h
  | @write c b bs h hr =>
    have := NetStep.write (t := t) (net := net) i 1 h (Nat.le_refl _) (by simp) hr
    exact this
  | @read c m b bs h hr =>
    have h0 := (needs_some h).1
    have := NetStep.read (t := t) (net := net) i 1 h (Nat.le_refl _) h0 (by rw [hr]; simp)
    rw [show (x.pipes c).take 1 = [b] by rw [hr]; rfl] at this
    exact this
  | ended h he ho => exact .ended i h he ho

theorem run_bytes {t : Target} {net : Net S} {k : Nat} {x y : NetState S} (h : NetRun t net k x y) :
    ∃ n, k ≤ n ∧ Bytes t net n x y := by
  induction h with
  | start => exact ⟨0, Nat.le_refl _, .nil⟩
  | step h more ih =>
    obtain ⟨n, hn, h1⟩ := ih
    obtain ⟨m, hm, h2⟩ := step_bytes more
    exact ⟨n + m, by omega, h1.append h2⟩

theorem run_append {t : Target} {net : Net S} {n m : Nat} {x y z : NetState S}
    (h : NetRun t net n x y) (h' : NetRun t net m y z) : NetRun t net (n + m) x z := by
  induction h' with
  | start => exact h
  | step h' more ih => exact .step (ih h) more

theorem bytes_run {t : Target} {net : Net S} {n : Nat} {x y : NetState S} (h : Bytes t net n x y) :
    NetRun t net n x y := by
  induction h with
  | nil => exact .start
  | cons h more ih =>
    have := run_append (.step .start (byte_step h)) ih
    rwa [Nat.zero_add, Nat.add_comm] at this

theorem rest_quiet {t : Target} {net : Net S} {x : NetState S} (h : AtRest t net x) :
    Quiet t net x := fun y hy => h ⟨y, byte_step hy⟩

theorem quiet_rest {t : Target} {net : Net S} {x : NetState S} (h : Quiet t net x) :
    AtRest t net x := by
  rintro ⟨y, hy⟩
  obtain ⟨n, hn, hb⟩ := step_bytes hy
  cases hb with
  | nil => omega
  | cons hb more => exact h _ hb

theorem between_owned (net : Net S) (s : Nat → S) : net.Owned (between s) := fun _ => trivial

/-! ## Pipes that are closed -/

/-- A program that has ended stays so. -/
theorem over_stays {t : Target} {net : Net S} {x y : NetState S} (h : Byte t net x y) {j : Nat}
    (ho : (x.doing j).Over (net.act j)) : y.doing j = x.doing j := by
  obtain ⟨i, e, d, hf, rfl⟩ := h
  refine setAt_other _ _ ?_
  rintro rfl
  exact over_fire hf ho

/-- What is on its way to a program that has ended stays there. -/
theorem lost_stays {t : Target} {net : Net S} (hn : net.Wired) {n : Nat} {x z : NetState S}
    (h : Bytes t net n x z) (hx : net.Owned x) {c : Nat}
    (ho : (x.doing (net.reader c)).Over (net.act (net.reader c)))
    (hl : x.pipes c ≠ [] ∨ ∃ i bs, (x.doing i).offers = some (c, bs)) :
    (z.doing (net.reader c)).Over (net.act (net.reader c)) ∧
      (z.pipes c ≠ [] ∨ ∃ i bs, (z.doing i).offers = some (c, bs)) := by
  induction h with
  | nil => exact ⟨ho, hl⟩
  | @cons n x y z h more ih =>
    refine ih (byte_owned hn hx h) ?_ ?_
    · rw [over_stays h ho]
      exact ho
    · obtain ⟨i, e, d, hf, rfl⟩ := h
      obtain ⟨-, hg⟩ := fire_pipe hx hf
      have keep : x.pipes c ≠ [] → (next x i e d).pipes c ≠ [] := by
        intro hp
        cases e with
        | none => exact hp
        | put c' b =>
          simp only [next, Eff.apply, setAt]
          split
          · simp
          · exact hp
        | get c' =>
          have h1 : c ≠ c' := by
            rintro rfl
            have h2 := (hg c rfl).1
            rw [h2] at ho
            exact over_fire hf ho
          simp only [next, Eff.apply]
          rw [setAt_other _ _ h1]
          exact hp
      rcases hl with hl | ⟨j, bs, hj⟩
      · exact .inl (keep hl)
      · by_cases hji : j = i
        · subst hji
          cases hf with
          | alone h => rw [(alone_excl h).1] at hj; cases hj
          | @write c' b bs' h hr =>
            rw [hj] at h
            cases h
            refine .inl ?_
            simp only [next, Eff.apply]
            rw [setAt_same]
            simp
          | read h hr => rw [offers_needs hj] at h; cases h
          | ended h => rw [offers_needs hj] at h; cases h
        · refine .inr ⟨j, bs, ?_⟩
          rw [show (next x i e d).doing j = x.doing j from setAt_other _ _ hji]
          exact hj

/-- If in the end nothing is on its way to a program that has ended, then it never is. -/
theorem never_lost {t : Target} {net : Net S} (hn : net.Wired) {n : Nat} {x z : NetState S}
    (h : Bytes t net n x z) (hx : net.Owned x) (hz : Arrived net z) {c i : Nat} {bs : List UInt8}
    (hi : (x.doing i).offers = some (c, bs)) :
    ¬ (x.doing (net.reader c)).Over (net.act (net.reader c)) := by
  intro ho
  obtain ⟨h1, h2⟩ := lost_stays hn h hx ho (.inr ⟨i, bs, hi⟩)
  obtain ⟨h3, h4⟩ := hz c h1
  rcases h2 with h2 | ⟨j, bs, h2⟩
  · exact h2 h3
  · exact h4 j bs h2

/-- Steps of one kind are steps of the other where no pipe to be written to is closed. -/
theorem pipe_step {t : Target} {net : Net S} {late : Bool} {x y : NetState S}
    (hx : ∀ i c bs, (x.doing i).offers = some (c, bs) →
      ¬ (x.doing (net.reader c)).Over (net.act (net.reader c))) :
    PipeStep t net late x y ↔ NetStep t net x y := by
  constructor
  · intro h
    cases h with
    | alone i h => exact .alone i h
    | write i n h h1 h2 hr ho => exact .write i n h h1 h2 hr
    | broken i e h ho => exact absurd ho (hx i _ _ h)
    | read i n h h1 h2 hr => exact .read i n h h1 h2 hr
    | ended i h he ho => exact .ended i h he ho
  · intro h
    cases h with
    | alone i h => exact .alone i h
    | write i n h h1 h2 hr => exact .write i n h h1 h2 hr (.inr (hx i _ _ h))
    | read i n h h1 h2 hr => exact .read i n h h1 h2 hr
    | ended i h he ho => exact .ended i h he ho

theorem steps_map {X : Type 1} {R R' : X → X → Prop} {n : Nat} {x y : X} (h : Steps R n x y)
    (hR : ∀ l w, Steps R' l x w → ∀ w', R w w' → R' w w') : Steps R' n x y := by
  induction h with
  | start => exact .start
  | step h more ih => exact .step (ih hR) (hR _ _ (ih hR) _ more)

theorem pipe_ends {t : Target} {net : Net S} (hn : net.Wired) {late : Bool} {x z : NetState S}
    (hx : net.Owned x) (hz : Arrived net z) (h : EndsIn (NetStep t net) x z) :
    EndsIn (PipeStep t net late) x z := by
  obtain ⟨most, h⟩ := h
  have safe : ∀ l y, NetRun t net l x y → ∀ i c bs, (y.doing i).offers = some (c, bs) →
      ¬ (y.doing (net.reader c)).Over (net.act (net.reader c)) := by
    intro l y hy i c bs hi
    obtain ⟨m, hm⟩ := (h l y hy).2.1
    obtain ⟨_, -, hb⟩ := run_bytes hm
    obtain ⟨_, -, ha⟩ := run_bytes hy
    exact never_lost hn hb (bytes_owned hn ha hx) hz hi
  have same : ∀ l y, Steps (PipeStep t net late) l x y → NetRun t net l x y := fun l y hy =>
    steps_map hy fun l w hw w' more => (pipe_step (safe _ _ hw)).mp more
  refine ⟨most, fun l y hy => ?_⟩
  have hy' := same l y hy
  obtain ⟨h1, ⟨m, h2⟩, h3⟩ := h l y hy'
  refine ⟨h1, ⟨m, ?_⟩, ?_⟩
  · have h4 : ∀ k w, NetRun t net k y w → ∀ w', NetStep t net w w' → PipeStep t net late w w' :=
      fun k w hw w' more => (pipe_step (safe _ _ (run_append hy' hw))).mpr more
    have h5 : ∀ k w, Steps (PipeStep t net late) k y w → NetRun t net k y w := by
      intro k w hw
      refine steps_map hw fun l w' hw' w'' more => ?_
      exact (pipe_step (safe _ _ (run_append hy' hw'))).mp more
    exact steps_map h2 fun l w hw w' more => h4 l w (h5 l w hw) w' more
  · rw [← h3]
    exact not_congr (exists_congr fun y' => pipe_step (safe l y hy'))

/-! ## Whole values -/

/-- A state in which two programs have been replaced. -/
def duo (x : NetState S) (i : Nat) (d : Doing S) (j : Nat) (e : Doing S) : NetState S :=
  ⟨setAt (setAt x.doing i d) j e, x.pipes⟩

theorem duo_left {x : NetState S} {i j : Nat} (hij : i ≠ j) (d e : Doing S) :
    (duo x i d j e).doing i = d := by
  simp only [duo]
  rw [setAt_other _ _ hij, setAt_same]

theorem duo_right (x : NetState S) (i j : Nat) (d e : Doing S) : (duo x i d j e).doing j = e :=
  setAt_same _ _ _

theorem next_left {x : NetState S} {i j : Nat} (hij : i ≠ j) (d d' e : Doing S) :
    next (duo x i d j e) i .none d' = duo x i d' j e := by
  simp only [next, duo, Eff.apply]
  rw [setAt_comm _ _ _ hij, setAt_setAt, setAt_comm _ _ _ hij]

theorem next_right (x : NetState S) (i j : Nat) (d e e' : Doing S) :
    next (duo x i d j e) j .none e' = duo x i d j e' := by
  simp only [next, duo, Eff.apply]
  rw [setAt_setAt]

theorem alone_left {t : Target} {net : Net S} {x : NetState S} {i j : Nat} (hij : i ≠ j)
    {d d' e : Doing S} (h : d.alone t (net.act i) = some d') :
    Byte t net (duo x i d j e) (duo x i d' j e) :=
  ⟨i, .none, d', .alone (by rw [duo_left hij]; exact h), (next_left hij d d' e).symm⟩

theorem alone_right {t : Target} {net : Net S} {x : NetState S} {i j : Nat}
    {d e e' : Doing S} (h : e.alone t (net.act j) = some e') :
    Byte t net (duo x i d j e) (duo x i d j e') :=
  ⟨j, .none, e', .alone (by rw [duo_right]; exact h), (next_right x i j d e e').symm⟩

/-- One byte goes through the pipe. -/
theorem pass_byte {t : Target} {net : Net S} {x : NetState S} {i j c : Nat} (hij : i ≠ j)
    (hx : x.pipes c = []) (hr : HasRoom (net.room c) 1) {d e : Doing S} {b : UInt8}
    {bs : List UInt8} {m : Nat} (hd : d.offers = some (c, b :: bs)) (he : e.needs = some (c, m)) :
    Bytes t net 2 (duo x i d j e) (duo x i (d.wrote 1) j (e.got [b])) := by
  have h1 : Fire t net (duo x i d j e) i (.put c b) (((duo x i d j e).doing i).wrote 1) := by
    refine .write (bs := bs) (by rw [duo_left hij]; exact hd) ?_
    rw [show (duo x i d j e).pipes c = [] from hx]
    exact hr
  rw [duo_left hij] at h1
  have h2 : Fire t net (next (duo x i d j e) i (.put c b) (d.wrote 1)) j (.get c) (e.got [b]) := by
    have e1 : (next (duo x i d j e) i (.put c b) (d.wrote 1)).doing j = e := by
      simp only [next]
      rw [setAt_other _ _ (Ne.symm hij), duo_right]
    have := Fire.read (t := t) (net := net) (x := next (duo x i d j e) i (.put c b) (d.wrote 1))
      (i := j) (c := c) (m := m) (b := b) (bs := []) (by rw [e1]; exact he)
      (by
        simp only [next, Eff.apply, duo]
        rw [setAt_same, hx]
        rfl)
    rw [e1] at this
    exact this
  refine .cons ⟨i, _, _, h1, rfl⟩ ?_
  have e2 : next (next (duo x i d j e) i (.put c b) (d.wrote 1)) j (.get c) (e.got [b]) =
      duo x i (d.wrote 1) j (e.got [b]) := by
    simp only [next, duo, Eff.apply]
    rw [setAt_same, hx, setAt_setAt]
    congr 1
    · rw [setAt_comm _ _ _ hij, setAt_setAt, setAt_comm _ _ _ hij, setAt_setAt,
        setAt_comm _ _ _ hij]
    · rw [show List.drop 1 ([] ++ [b]) = x.pipes c by rw [hx]; rfl, setAt_self]
  rw [← e2]
  exact .cons ⟨j, _, _, h2, rfl⟩ .nil

/-- The sender has nothing left to write. -/
theorem send_done {t : Target} {net : Net S} {x : NetState S} {i j c : Nat} (hij : i ≠ j)
    {e : Doing S} {ε : Type} (sent : Except ε Unit → S) (p : WProg ε) (hp : p.exec = ([], .ok ())) :
    ∃ n, Bytes t net n (duo x i (.sending c p sent) j e) (duo x i (.at (sent (.ok ()))) j e) := by
  induction p with
  | done o =>
    simp only [WProg.exec, Prod.mk.injEq, true_and] at hp
    subst hp
    exact ⟨1, .cons (alone_left hij rfl) .nil⟩
  | writeAll bs onErr k ih =>
    simp only [WProg.exec, Prod.mk.injEq, List.append_eq_nil_iff] at hp
    obtain ⟨n, hn⟩ := ih (Prod.ext hp.1.2 hp.2)
    rw [hp.1.1]
    exact ⟨n + 1, .cons (alone_left hij rfl) hn⟩

/-- The sender comes to its next byte. -/
theorem send_next {t : Target} {net : Net S} {x : NetState S} {i j c : Nat} (hij : i ≠ j)
    {e : Doing S} {ε : Type} (sent : Except ε Unit → S) (p : WProg ε) {b : UInt8} {bs : List UInt8}
    (hp : p.exec = (b :: bs, .ok ())) :
    ∃ n as onErr, ∃ k : WProg ε, Bytes t net n (duo x i (.sending c p sent) j e)
        (duo x i (.sending c (.writeAll (b :: as) onErr k) sent) j e) ∧
      (WProg.writeAll as onErr k).exec = (bs, .ok ()) := by
  induction p with
  | done o => simp [WProg.exec] at hp
  | writeAll as onErr k ih =>
    cases as with
    | nil =>
      simp only [WProg.exec, List.nil_append] at hp
      obtain ⟨n, as, onErr, k, h1, h2⟩ := ih hp
      exact ⟨n + 1, as, onErr, k, .cons (alone_left hij rfl) h1, h2⟩
    | cons a as =>
      simp only [WProg.exec, List.cons_append, Prod.mk.injEq, List.cons.injEq] at hp
      obtain ⟨⟨rfl, h1⟩, h2⟩ := hp
      exact ⟨0, as, onErr, k, .nil, by simp only [WProg.exec, h1, h2]⟩

/-- How many bytes the present call can have got. -/
def Fits {ε α : Type} : Prog ε α → Nat → Prop
  | .readExact n _ _, m => m ≤ n
  | .takeToEnd n _ _, m => m ≤ n
  | _, m => m = 0

/-- A value goes through the pipe, byte by byte. -/
theorem pump {t : Target} {net : Net S} {x : NetState S} {i j c : Nat} (hij : i ≠ j)
    (hx : x.pipes c = []) (hr : HasRoom (net.room c) 1) {ε δ α : Type} (sent : Except ε Unit → S)
    (heard : Except δ α → S) (v : α) (q : Prog δ α) :
    ∀ (k : Nat) (got : List UInt8) (p : WProg ε) (bs : List UInt8), bs.length ≤ k →
      p.exec = (bs, .ok ()) → Fits q got.length →
      (∀ rest, Prog.run t q (got ++ bs ++ rest) = .ok (v, rest)) →
      ∃ n, Bytes t net n (duo x i (.sending c p sent) j (.receiving c q got heard))
        (duo x i (.at (sent (.ok ()))) j (.at (heard (.ok v)))) := by
  induction q with
  | done o =>
    intro k got p bs _ hp _ h
    have h0 := h []
    rw [Prog.run, List.append_nil] at h0
    cases o with
    | err e => simp [Prog.exec] at h0
    | panic e => simp [Prog.exec] at h0
    | ok a =>
      simp only [Prog.exec, Outcome.ok.injEq, Prod.mk.injEq, List.append_eq_nil_iff] at h0
      obtain ⟨rfl, rfl, rfl⟩ := h0
      obtain ⟨n, hn⟩ := send_done (t := t) (net := net) (x := x) (c := c) hij
        (e := .at (heard (.ok a))) sent p hp
      exact ⟨n + 1, .cons (alone_right rfl) hn⟩
  | alloc m q ih =>
    intro k got p bs hk hp hf h
    cases ha : t.allocate m with
    | some e =>
      have h0 := h []
      rw [Prog.run, Prog.exec, ha] at h0
      cases h0
    | none =>
      have hg : got = [] := List.eq_nil_of_length_eq_zero hf
      subst hg
      obtain ⟨n, hn⟩ := ih k [] p bs hk hp (by cases q <;> simp [Fits]) (fun rest => by
        have h0 := h rest
        rw [Prog.run, Prog.exec, ha] at h0
        exact h0)
      refine ⟨n + 1, .cons (alone_right ?_) hn⟩
      simp [Doing.alone, ha]
  | readExact m onErr q ih =>
    intro k
    induction k with
    | zero =>
      intro got p bs hk hp hf h
      have hb : bs = [] := List.eq_nil_of_length_eq_zero (by omega)
      subst hb
      have hl : got.length = m := by
        have h0 := h []
        rw [Prog.run, Prog.exec] at h0
        split at h0
        · rename_i hm
          simp only [List.append_nil] at hm
          exact Nat.le_antisymm hf hm
        · cases h0
      obtain ⟨n, hn⟩ := ih ⟨got.toArray, by simpa using hl⟩ 0 [] p [] (Nat.le_refl _) hp
        (by cases q _ <;> simp [Fits]) (fun rest => by
          have h0 := h rest
          rw [Prog.run, Prog.exec, dif_pos (by simp; omega)] at h0
          have e1 : takeVec (n := m) (got ++ [] ++ rest) (by simp; omega) =
              ⟨got.toArray, by simpa using hl⟩ := by
            simp [takeVec, ← hl]
          rw [e1] at h0
          have e2 : List.drop m (got ++ [] ++ rest) = rest := by simp [← hl]
          rw [e2] at h0
          exact h0)
      refine ⟨n + 1, .cons (alone_right ?_) hn⟩
      simp [Doing.alone, hl]
    | succ k ihk =>
      intro got p bs hk hp hf h
      by_cases hl : got.length = m
      · obtain ⟨n, hn⟩ := ih ⟨got.toArray, by simpa using hl⟩ (k + 1) [] p bs hk hp
          (by cases q _ <;> simp [Fits]) (fun rest => by
            have h0 := h rest
            rw [Prog.run, Prog.exec, dif_pos (by simp; omega)] at h0
            have e1 : takeVec (n := m) (got ++ bs ++ rest) (by simp; omega) =
                ⟨got.toArray, by simpa using hl⟩ := by
              simp [takeVec, ← hl]
            rw [e1] at h0
            have e2 : List.drop m (got ++ bs ++ rest) = bs ++ rest := by simp [← hl]
            rw [e2] at h0
            exact h0)
        refine ⟨n + 1, .cons (alone_right ?_) hn⟩
        simp [Doing.alone, hl]
      · have hf' : got.length ≤ m := hf
        cases bs with
        | nil =>
          have h0 := h []
          rw [Prog.run, Prog.exec, dif_neg (by simp; omega)] at h0
          cases h0
        | cons b bs =>
          obtain ⟨n, as, onErr', p', h1, h2⟩ := send_next (t := t) (net := net) (x := x) (c := c) hij
            (e := .receiving c (.readExact m onErr q) got heard) sent p hp
          have h3 := pass_byte (t := t) (x := x) hij hx hr
            (d := .sending c (.writeAll (b :: as) onErr' p') sent)
            (e := .receiving c (.readExact m onErr q) got heard) (b := b) (bs := as)
            (m := m - got.length) rfl (by simp only [Doing.needs]; rw [if_pos (by omega)])
          obtain ⟨n', hn'⟩ := ihk (got ++ [b]) (.writeAll as onErr' p') bs
            (by simp only [List.length_cons] at hk; omega) h2
            (by simp only [Fits, List.length_append, List.length_singleton]; omega)
            (fun rest => by
              have h0 := h rest
              rwa [List.append_assoc got [b], List.singleton_append])
          exact ⟨_, (h1.append h3).append hn'⟩
  | takeToEnd m onErr q ih =>
    have enough : ∀ (got bs : List UInt8),
        (∀ rest, Prog.run t (.takeToEnd m onErr q) (got ++ bs ++ rest) = .ok (v, rest)) →
        m ≤ got.length + bs.length := by
      intro got bs h
      apply Decidable.byContradiction
      intro hlt
      have h0 := h (List.replicate m 0)
      rw [Prog.run, Prog.exec, if_pos (by simp; omega)] at h0
      have h1 := (Prog.exec_suffix _ _ _ _ _ _ h0).length_le
      simp only [List.length_drop, List.length_append, List.length_replicate] at h1
      omega
    intro k
    induction k with
    | zero =>
      intro got p bs hk hp hf h
      have hb : bs = [] := List.eq_nil_of_length_eq_zero (by omega)
      subst hb
      have hl : got.length = m := Nat.le_antisymm hf (by simpa using enough got [] h)
      obtain ⟨n, hn⟩ := ih got 0 [] p [] (Nat.le_refl _) hp
        (by cases q _ <;> simp [Fits]) (fun rest => by
          have h0 := h rest
          rw [Prog.run, Prog.exec, if_pos (by simp; omega)] at h0
          have e1 : List.take m (got ++ [] ++ rest) = got := by simp [← hl]
          have e2 : List.drop m (got ++ [] ++ rest) = rest := by simp [← hl]
          rw [e1, e2] at h0
          exact h0)
      refine ⟨n + 1, .cons (alone_right ?_) hn⟩
      simp [Doing.alone, hl]
    | succ k ihk =>
      intro got p bs hk hp hf h
      by_cases hl : got.length = m
      · obtain ⟨n, hn⟩ := ih got (k + 1) [] p bs hk hp
          (by cases q _ <;> simp [Fits]) (fun rest => by
            have h0 := h rest
            rw [Prog.run, Prog.exec, if_pos (by simp; omega)] at h0
            have e1 : List.take m (got ++ bs ++ rest) = got := by simp [← hl]
            have e2 : List.drop m (got ++ bs ++ rest) = bs ++ rest := by simp [← hl]
            rw [e1, e2] at h0
            exact h0)
        refine ⟨n + 1, .cons (alone_right ?_) hn⟩
        simp [Doing.alone, hl]
      · have hf' : got.length ≤ m := hf
        cases bs with
        | nil =>
          have h0 := enough got [] h
          simp only [List.length_nil] at h0
          omega
        | cons b bs =>
          obtain ⟨n, as, onErr', p', h1, h2⟩ := send_next (t := t) (net := net) (x := x) (c := c) hij
            (e := .receiving c (.takeToEnd m onErr q) got heard) sent p hp
          have h3 := pass_byte (t := t) (x := x) hij hx hr
            (d := .sending c (.writeAll (b :: as) onErr' p') sent)
            (e := .receiving c (.takeToEnd m onErr q) got heard) (b := b) (bs := as)
            (m := m - got.length) rfl (by simp only [Doing.needs]; rw [if_pos (by omega)])
          obtain ⟨n', hn'⟩ := ihk (got ++ [b]) (.writeAll as onErr' p') bs
            (by simp only [List.length_cons] at hk; omega) h2
            (by simp only [Fits, List.length_append, List.length_singleton]; omega)
            (fun rest => by
              have h0 := h rest
              rwa [List.append_assoc got [b], List.singleton_append])
          exact ⟨_, (h1.append h3).append hn'⟩

/-- A program learns that the one that would send has ended. -/
theorem hangup {t : Target} {net : Net S} {x : NetState S} {j c : Nat} (hx : x.pipes c = [])
    (hj : net.writer c ≠ j)
    (ho : (x.doing (net.writer c)).Over (net.act (net.writer c))) {δ α : Type}
    (heard : Except δ α → S) {e : δ} (q : Prog δ α) (h : Prog.run t q [] = .err e) :
    ∃ n, Bytes t net n ⟨setAt x.doing j (.receiving c q [] heard), x.pipes⟩
      ⟨setAt x.doing j (.at (heard (.error e))), x.pipes⟩ := by
  have solo : ∀ {d d' : Doing S}, d.alone t (net.act j) = some d' →
      Byte t net ⟨setAt x.doing j d, x.pipes⟩ ⟨setAt x.doing j d', x.pipes⟩ := by
    intro d d' hd
    refine ⟨j, .none, d', .alone ?_, ?_⟩
    · dsimp only
      rw [setAt_same]
      exact hd
    · simp only [next, Eff.apply]
      rw [setAt_setAt]
  have over : ∀ {d : Doing S} {m : Nat}, d.needs = some (c, m) →
      Byte t net ⟨setAt x.doing j d, x.pipes⟩ ⟨setAt x.doing j d.ended, x.pipes⟩ := by
    intro d m hd
    have h1 := Fire.ended (t := t) (net := net) (x := ⟨setAt x.doing j d, x.pipes⟩) (i := j)
      (c := c) (m := m) (by dsimp only; rw [setAt_same]; exact hd) hx
      (by dsimp only; rw [setAt_other _ _ hj]; exact ho)
    refine ⟨j, .none, _, h1, ?_⟩
    simp only [next, Eff.apply]
    rw [setAt_setAt, setAt_same]
  induction q with
  | done o =>
    rw [Prog.run] at h
    cases o with
    | ok a => simp [Prog.exec] at h
    | panic e => simp [Prog.exec] at h
    | err e' =>
      simp only [Prog.exec, Outcome.err.injEq] at h
      subst h
      exact ⟨1, .cons (solo rfl) .nil⟩
  | alloc m q ih =>
    rw [Prog.run, Prog.exec] at h
    cases ha : t.allocate m with
    | some e => rw [ha] at h; cases h
    | none =>
      rw [ha] at h
      obtain ⟨n, hn⟩ := ih h
      refine ⟨n + 1, .cons (solo ?_) hn⟩
      simp [Doing.alone, ha]
  | readExact m onErr q ih =>
    rw [Prog.run, Prog.exec] at h
    split at h
    · rename_i hm
      simp only [List.length_nil, Nat.le_zero_eq] at hm
      subst hm
      obtain ⟨n, hn⟩ := ih _ h
      exact ⟨n + 1, .cons (solo rfl) hn⟩
    · rename_i hm
      simp only [List.length_nil, Nat.le_zero_eq] at hm
      simp only [Outcome.err.injEq] at h
      subst h
      refine ⟨1, .cons (over (m := m) ?_) .nil⟩
      simp only [Doing.needs, List.length_nil]
      rw [if_pos (by omega)]
      rfl
  | takeToEnd m onErr q ih =>
    rw [Prog.run, Prog.exec] at h
    have h' : Prog.run t (q []) [] = .err e := by
      split at h
      · simpa [Prog.run] using h
      · exact h
    obtain ⟨n, hn⟩ := ih _ h'
    by_cases hm : m = 0
    · subst hm
      exact ⟨n + 1, .cons (solo rfl) hn⟩
    · refine ⟨n + 1, .cons (over (m := m) ?_) hn⟩
      simp only [Doing.needs, List.length_nil]
      rw [if_pos (by omega)]
      rfl

/-- Every pipe can hold something. -/
theorem value_bytes {t : Target} {net : Net S} (hr : ∀ c, HasRoom (net.room c) 1)
    {s s' : Nat → S} (h : ValueStep t net s s') :
    ∃ n, 1 ≤ n ∧ Bytes t net n (between s) (between s') := by
  cases h with
  | @pass ε δ α c i j p q sent heard v hne hs hr' hv =>
    obtain ⟨bs, hp, hq⟩ := hv
    have e0 : between s = duo (between s) i (.at (s i)) j (.at (s j)) := by
      simp only [duo, between]
      congr 1
      funext k
      simp only [setAt]
      split
      · rename_i hk; rw [hk]
      · split
        · rename_i hk; rw [hk]
        · rfl
    have e1 : between (setAt (setAt s i (sent (.ok ()))) j (heard (.ok v))) =
        duo (between s) i (.at (sent (.ok ()))) j (.at (heard (.ok v))) := by
      simp only [duo, between]
      congr 1
      funext k
      simp only [setAt]
      split
      · rfl
      · split <;> rfl
    obtain ⟨n, hn⟩ := pump (t := t) (net := net) (x := between s) hne rfl (hr c) sent heard v q
      bs.length [] p bs (Nat.le_refl _) hp (by cases q <;> simp [Fits]) (by simpa using hq)
    have h1 : Byte t net (duo (between s) i (.at (s i)) j (.at (s j)))
        (duo (between s) i (.sending c p sent) j (.at (s j))) :=
      alone_left hne (by rw [Doing.alone, hs])
    have h2 : Byte t net (duo (between s) i (.sending c p sent) j (.at (s j)))
        (duo (between s) i (.sending c p sent) j (.receiving c q [] heard)) :=
      alone_right (by rw [Doing.alone, hr'])
    rw [e1]
    have h3 := Bytes.cons h1 (.cons h2 hn)
    rw [← e0] at h3
    exact ⟨n + 1 + 1, by omega, h3⟩
  | @closed δ α c j q heard e hr' hs hv =>
    have hj : net.writer c ≠ j := by
      rintro rfl
      rw [hs] at hr'
      cases hr'
    obtain ⟨n, hn⟩ := hangup (t := t) (net := net) (x := between s) rfl hj hs heard q hv
    have h1 : Byte t net (between s)
        ⟨setAt (between s).doing j (.receiving c q [] heard), (between s).pipes⟩ :=
      ⟨j, .none, _, .alone (by
        simp only [between]
        rw [Doing.alone, hr']), rfl⟩
    have e1 : between (setAt s j (heard (.error e))) =
        ⟨setAt (between s).doing j (.at (heard (.error e))), (between s).pipes⟩ := by
      simp only [between]
      congr 1
      funext k
      simp only [setAt]
      split <;> rfl
    rw [e1]
    exact ⟨n + 1, by omega, .cons h1 hn⟩

theorem talk_bytes {t : Target} {net : Net S} (hr : ∀ c, HasRoom (net.room c) 1) {k : Nat}
    {s s' : Nat → S} (h : Talk t net k s s') :
    ∃ n, k ≤ n ∧ Bytes t net n (between s) (between s') := by
  induction h with
  | start => exact ⟨0, Nat.le_refl _, .nil⟩
  | step h more ih =>
    obtain ⟨n, hn, h1⟩ := ih
    obtain ⟨m, hm, h2⟩ := value_bytes hr more
    exact ⟨n + m, by omega, h1.append h2⟩

theorem stopped_quiet {t : Target} {net : Net S} {s : Nat → S} (h : ∀ i, net.act i (s i) = .stop) :
    Quiet t net (between s) := by
  rintro y ⟨i, e, d, hf, rfl⟩
  exact over_fire hf (h i)

/-! ## Through a pipe with room -/

/-- The sender writes as much as there is room for. -/
theorem fill {t : Target} {net : Net S} {i j c : Nat} (hij : i ≠ j) {e : Doing S} {ε : Type}
    (sent : Except ε Unit → S) : ∀ (as : List UInt8) {x : NetState S} (p : WProg ε)
    {bs : List UInt8}, p.exec = (as ++ bs, .ok ()) →
    HasRoom (net.room c) ((x.pipes c).length + as.length) →
    ∃ n, ∃ p' : WProg ε, p'.exec = (bs, .ok ()) ∧ Bytes t net n (duo x i (.sending c p sent) j e)
      (duo ⟨x.doing, setAt x.pipes c (x.pipes c ++ as)⟩ i (.sending c p' sent) j e)
  | [], x, p, bs, hp, hr => by
    refine ⟨0, p, hp, ?_⟩
    rw [List.append_nil, setAt_self]
    exact .nil
  | a :: as, x, p, bs, hp, hr => by
    obtain ⟨n, as', onErr, k, h1, h2⟩ := send_next (t := t) (net := net) (x := x) (c := c) hij
      (e := e) sent p hp
    have h3 : Fire t net (duo x i (.sending c (.writeAll (a :: as') onErr k) sent) j e) i (.put c a)
        (((duo x i (.sending c (.writeAll (a :: as') onErr k) sent) j e).doing i).wrote 1) := by
      refine .write (bs := as') (by rw [duo_left hij]; rfl) ?_
      intro m hm
      have := hr m hm
      rw [List.length_cons] at this
      simp only [duo]
      omega
    rw [duo_left hij] at h3
    have e1 : next (duo x i (.sending c (.writeAll (a :: as') onErr k) sent) j e) i (.put c a)
        ((Doing.sending c (.writeAll (a :: as') onErr k) sent).wrote 1) =
        duo ⟨x.doing, setAt x.pipes c (x.pipes c ++ [a])⟩ i
          (.sending c (.writeAll as' onErr k) sent) j e := by
      simp only [next, duo, Eff.apply]
      congr 1
      rw [setAt_comm _ _ _ hij, setAt_setAt, setAt_comm _ _ _ hij]
      rfl
    obtain ⟨n', p', h4, h5⟩ := fill (t := t) (net := net) (c := c) hij (e := e) sent as
      (x := ⟨x.doing, setAt x.pipes c (x.pipes c ++ [a])⟩) (.writeAll as' onErr k) h2
      (by
        dsimp only
        rw [setAt_same]
        intro m hm
        have := hr m hm
        rw [List.length_cons] at this
        rw [List.length_append, List.length_singleton]
        omega)
    dsimp only at h5
    rw [setAt_same, setAt_setAt, List.append_assoc, List.singleton_append] at h5
    refine ⟨n + (n' + 1), p', h4, h1.append (.cons ⟨i, _, _, h3, rfl⟩ ?_)⟩
    rw [e1]
    exact h5

/-- The receiver reads the first value in the pipe. -/
theorem drain_front {t : Target} {net : Net S} {i j c : Nat} {d : Doing S} {δ α : Type}
    (heard : Except δ α → S) (v : α) (q : Prog δ α) : ∀ {x : NetState S} (bs left : List UInt8),
    x.pipes c = bs ++ left → (∀ rest, Prog.run t q (bs ++ rest) = .ok (v, rest)) →
    ∃ n, Bytes t net n (duo x i d j (.receiving c q [] heard))
      (duo ⟨x.doing, setAt x.pipes c left⟩ i d j (.at (heard (.ok v)))) := by
  have take : ∀ {x : NetState S} {e : Doing S} {m : Nat}, e.needs = some (c, m) →
      m ≤ (x.pipes c).length → Bytes t net m (duo x i d j e)
        (duo ⟨x.doing, setAt x.pipes c ((x.pipes c).drop m)⟩ i d j (e.got ((x.pipes c).take m))) := by
    intro x e m he hm
    have := read_bytes (t := t) (net := net) j m (x := duo x i d j e) (by rw [duo_right]; exact he)
      (Nat.le_refl _) hm
    rw [duo_right] at this
    have e1 : setAt (duo x i d j e).doing j (e.got ((x.pipes c).take m)) =
        (duo x i d j (e.got ((x.pipes c).take m))).doing := by
      simp only [duo]
      rw [setAt_setAt]
    rw [show (duo x i d j e).pipes = x.pipes from rfl, e1] at this
    exact this
  induction q with
  | done o =>
    intro x bs left hx h
    have h0 := h []
    rw [Prog.run, List.append_nil] at h0
    cases o with
    | err e => simp [Prog.exec] at h0
    | panic e => simp [Prog.exec] at h0
    | ok a =>
      simp only [Prog.exec, Outcome.ok.injEq, Prod.mk.injEq] at h0
      obtain ⟨rfl, rfl⟩ := h0
      rw [List.nil_append] at hx
      rw [← hx, setAt_self]
      exact ⟨1, .cons (alone_right rfl) .nil⟩
  | alloc m q ih =>
    intro x bs left hx h
    cases ha : t.allocate m with
    | some e =>
      have h0 := h []
      rw [Prog.run, Prog.exec, ha] at h0
      cases h0
    | none =>
      obtain ⟨n, hn⟩ := ih bs left hx (fun rest => by
        have h0 := h rest
        rw [Prog.run, Prog.exec, ha] at h0
        exact h0)
      refine ⟨n + 1, .cons (alone_right ?_) hn⟩
      simp [Doing.alone, ha]
  | readExact m onErr q ih =>
    intro x bs left hx h
    have hl : m ≤ bs.length := by
      have h0 := h []
      rw [Prog.run, Prog.exec] at h0
      split at h0
      · rename_i hm
        simpa using hm
      · cases h0
    obtain ⟨n, hn⟩ := ih (takeVec bs hl) (x := ⟨x.doing, setAt x.pipes c (bs.drop m ++ left)⟩) (bs.drop m) left
      (setAt_same _ _ _) (fun rest => by
        have h0 := h rest
        rw [Prog.run, Prog.exec, dif_pos (by simp; omega)] at h0
        have e1 : takeVec (n := m) (bs ++ rest) (by simp; omega) = takeVec bs hl := by
          simp [takeVec, List.take_append_of_le_length hl]
        rw [e1, List.drop_append_of_le_length hl] at h0
        exact h0)
    dsimp only at hn
    rw [setAt_setAt] at hn
    have h2 : (Doing.receiving c (.readExact m onErr q) (bs.take m) heard).alone t (net.act j) =
        some (.receiving c (q (takeVec bs hl)) [] heard) := by
      simp [Doing.alone, takeVec, Nat.min_eq_left hl]
    by_cases hm : m = 0
    · subst hm
      rw [List.drop_zero, show setAt x.pipes c (bs ++ left) = x.pipes by rw [← hx, setAt_self]] at hn
      exact ⟨n + 1, .cons (alone_right h2) hn⟩
    · have h1 := take (x := x) (e := .receiving c (.readExact m onErr q) [] heard) (m := m)
        (by simp only [Doing.needs, List.length_nil]; rw [if_pos (by omega)]; rfl) (by rw [hx]; simp; omega)
      rw [hx, List.drop_append_of_le_length hl, List.take_append_of_le_length hl] at h1
      exact ⟨_, h1.append (.cons (alone_right h2) hn)⟩
  | takeToEnd m onErr q ih =>
    intro x bs left hx h
    have hl : m ≤ bs.length := by
      apply Decidable.byContradiction
      intro hlt
      have h0 := h (List.replicate m 0)
      rw [Prog.run, Prog.exec, if_pos (by simp)] at h0
      have h1 := (Prog.exec_suffix _ _ _ _ _ _ h0).length_le
      simp only [List.length_drop, List.length_append, List.length_replicate] at h1
      omega
    obtain ⟨n, hn⟩ := ih (bs.take m) (x := ⟨x.doing, setAt x.pipes c (bs.drop m ++ left)⟩) (bs.drop m) left
      (setAt_same _ _ _) (fun rest => by
        have h0 := h rest
        rw [Prog.run, Prog.exec, if_pos (by simp; omega)] at h0
        rw [List.take_append_of_le_length hl, List.drop_append_of_le_length hl] at h0
        exact h0)
    dsimp only at hn
    rw [setAt_setAt] at hn
    have h2 : (Doing.receiving c (.takeToEnd m onErr q) (bs.take m) heard).alone t (net.act j) =
        some (.receiving c (q (bs.take m)) [] heard) := by
      simp [Doing.alone, Nat.min_eq_left hl]
    by_cases hm : m = 0
    · subst hm
      rw [List.drop_zero, show setAt x.pipes c (bs ++ left) = x.pipes by rw [← hx, setAt_self]] at hn
      exact ⟨n + 1, .cons (alone_right h2) hn⟩
    · have h1 := take (x := x) (e := .receiving c (.takeToEnd m onErr q) [] heard) (m := m)
        (by simp only [Doing.needs, List.length_nil]; rw [if_pos (by omega)]; rfl) (by rw [hx]; simp; omega)
      rw [hx, List.drop_append_of_le_length hl, List.take_append_of_le_length hl] at h1
      exact ⟨_, h1.append (.cons (alone_right h2) hn)⟩

/-! ## Two programs that both send first -/

theorem duo_comm (x : NetState S) {i j : Nat} (hij : i ≠ j) (d e : Doing S) :
    duo x i d j e = duo x j e i d := by
  simp only [duo]
  rw [setAt_comm _ _ _ hij]

/-- One of the values fits its pipe. -/
theorem crossed {t : Target} {net : Net S} {x : NetState S} {i j a b : Nat} (hij : i ≠ j)
    (hab : a ≠ b) (hxa : x.pipes a = []) (hxb : x.pipes b = []) {ε ε' δ δ' α β : Type}
    {si sj : S} {p : WProg ε} {p' : WProg ε'} {q : Prog δ α} {q' : Prog δ' β} {v : α} {w : β}
    {sent : Except ε Unit → S} {sent' : Except ε' Unit → S} {heard : Except δ α → S}
    {heard' : Except δ' β → S}
    (h1 : net.act i si = .send a p sent) (h2 : net.act i (sent (.ok ())) = .recv b q' heard')
    (h3 : net.act j sj = .send b p' sent') (h4 : net.act j (sent' (.ok ())) = .recv a q heard)
    (hv : Hears t p q v) (hw : Hears t p' q' w) (hr : HasRoom (net.room a) p.exec.1.length)
    (hr' : HasRoom (net.room b) 1) :
    ∃ n, Bytes t net n (duo x i (.at si) j (.at sj))
      (duo x i (.at (heard' (.ok w))) j (.at (heard (.ok v)))) := by
  obtain ⟨bs, hp, hq⟩ := hv
  obtain ⟨cs, hp', hq'⟩ := hw
  rw [hp] at hr
  have k1 : Byte t net (duo x i (.at si) j (.at sj)) (duo x i (.sending a p sent) j (.at sj)) :=
    alone_left hij (by rw [Doing.alone, h1])
  obtain ⟨n2, p2, hp2, k2⟩ := fill (t := t) (net := net) (c := a) hij (e := .at sj) sent bs (x := x) p
    (bs := []) (by rw [List.append_nil]; exact hp) (by rw [hxa]; simpa using hr)
  rw [hxa, List.nil_append] at k2
  obtain ⟨n3, k3⟩ := send_done (t := t) (net := net) (x := ⟨x.doing, setAt x.pipes a bs⟩) (c := a) hij
    (e := .at sj) sent p2 hp2
  have k4 : Byte t net (duo ⟨x.doing, setAt x.pipes a bs⟩ i (.at (sent (.ok ()))) j (.at sj))
      (duo ⟨x.doing, setAt x.pipes a bs⟩ i (.receiving b q' [] heard') j (.at sj)) :=
    alone_left hij (by rw [Doing.alone, h2])
  have k5 : Byte t net (duo ⟨x.doing, setAt x.pipes a bs⟩ i (.receiving b q' [] heard') j (.at sj))
      (duo ⟨x.doing, setAt x.pipes a bs⟩ i (.receiving b q' [] heard') j (.sending b p' sent')) :=
    alone_right (by rw [Doing.alone, h3])
  obtain ⟨n6, k6⟩ := pump (t := t) (net := net) (x := ⟨x.doing, setAt x.pipes a bs⟩) (c := b)
    (Ne.symm hij) (by dsimp only; rw [setAt_other _ _ (Ne.symm hab)]; exact hxb) hr' sent' heard' w q'
    cs.length [] p' cs (Nat.le_refl _) hp' (by cases q' <;> simp [Fits]) (by simpa using hq')
  rw [duo_comm _ (Ne.symm hij), duo_comm _ (Ne.symm hij)] at k6
  have k7 : Byte t net
      (duo ⟨x.doing, setAt x.pipes a bs⟩ i (.at (heard' (.ok w))) j (.at (sent' (.ok ()))))
      (duo ⟨x.doing, setAt x.pipes a bs⟩ i (.at (heard' (.ok w))) j (.receiving a q [] heard)) :=
    alone_right (by rw [Doing.alone, h4])
  obtain ⟨n8, k8⟩ := drain_front (t := t) (net := net) (c := a) (i := i) (j := j)
    (d := .at (heard' (.ok w))) heard v q (x := ⟨x.doing, setAt x.pipes a bs⟩) bs []
    (by rw [List.append_nil]; exact setAt_same _ _ _) hq
  dsimp only at k8
  rw [setAt_setAt, show setAt x.pipes a [] = x.pipes by rw [← hxa, setAt_self]] at k8
  exact ⟨_, ((((Bytes.cons k1 k2).append k3).append (.cons k4 (.cons k5 .nil))).append k6).append
    (.cons k7 k8)⟩

/-- The sender writes as much as the pipe holds, and then it is not done. -/
theorem send_stuck {t : Target} {net : Net S} {x : NetState S} {i j c : Nat} (hij : i ≠ j)
    {e : Doing S} {ε : Type} (sent : Except ε Unit → S) (p : WProg ε) {bs xs : List UInt8}
    (hx : x.pipes c = xs) (hp : p.exec = (bs, .ok ())) {m : Nat} (hm : net.room c = some m)
    (hle : xs.length ≤ m) (hl : m < xs.length + bs.length) :
    ∃ n b as onErr, ∃ k : WProg ε, Bytes t net n (duo x i (.sending c p sent) j e)
        (duo ⟨x.doing, setAt x.pipes c (xs ++ bs.take (m - xs.length))⟩ i
          (.sending c (.writeAll (b :: as) onErr k) sent) j e) := by
  obtain ⟨n, p1, hp1, k1⟩ := fill (t := t) (net := net) (c := c) hij (e := e) sent
    (bs.take (m - xs.length)) (x := x) p (bs := bs.drop (m - xs.length))
    (by rw [List.take_append_drop]; exact hp) (by
      intro m' hm'
      rw [hm] at hm'
      cases hm'
      rw [hx]
      simp only [List.length_take]
      omega)
  rw [hx] at k1
  cases hd : bs.drop (m - xs.length) with
  | nil =>
    have := congrArg List.length hd
    simp only [List.length_drop, List.length_nil] at this
    omega
  | cons b ds =>
    rw [hd] at hp1
    obtain ⟨n', as, onErr, k, k2, -⟩ := send_next (t := t) (net := net)
      (x := ⟨x.doing, setAt x.pipes c (xs ++ bs.take (m - xs.length))⟩) (c := c) hij (e := e) sent p1
      hp1
    exact ⟨_, b, as, onErr, k, k1.append k2⟩

/-- A program that has bytes to write to a full pipe takes no step. -/
theorem full_quiet {t : Target} {net : Net S} {x : NetState S} {i c : Nat} {ε : Type}
    {sent : Except ε Unit → S} {b : UInt8} {as : List UInt8} {onErr : IoErr → ε} {k : WProg ε}
    (hd : x.doing i = .sending c (.writeAll (b :: as) onErr k) sent) {m : Nat}
    (hm : net.room c = some m) (hl : (x.pipes c).length = m) {e : Eff} {d : Doing S} :
    ¬ Fire t net x i e d := by
  intro h
  cases h with
  | alone h => rw [hd] at h; cases h
  | write h hr =>
    rw [hd] at h
    simp only [Doing.offers, Option.some.injEq, Prod.mk.injEq] at h
    obtain ⟨rfl, -⟩ := h
    have := hr m hm
    omega
  | read h => rw [hd] at h; cases h
  | ended h => rw [hd] at h; cases h

/-- Neither of the values fits its pipe, behind what is there. -/
theorem deadlock {t : Target} {net : Net S} {x : NetState S} {i j a b : Nat} (hij : i ≠ j)
    (hab : a ≠ b) {xs ys : List UInt8} (hxa : x.pipes a = xs) (hxb : x.pipes b = ys)
    (hover : ∀ l, l ≠ i → l ≠ j → (x.doing l).Over (net.act l)) {ε ε' : Type}
    {si sj : S} {p : WProg ε} {p' : WProg ε'} {bs cs : List UInt8}
    {sent : Except ε Unit → S} {sent' : Except ε' Unit → S}
    (h1 : net.act i si = .send a p sent) (h3 : net.act j sj = .send b p' sent')
    (hp : p.exec = (bs, .ok ())) (hp' : p'.exec = (cs, .ok ())) {m m' : Nat}
    (hm : net.room a = some m) (hm' : net.room b = some m') (hle : xs.length ≤ m)
    (hle' : ys.length ≤ m') (hl : m < xs.length + bs.length) (hl' : m' < ys.length + cs.length) :
    ∃ n z, Bytes t net n (duo x i (.at si) j (.at sj)) z ∧ Quiet t net z ∧
      ¬ (z.doing i).Over (net.act i) ∧ ¬ (z.doing j).Over (net.act j) ∧
      (∀ c, c ≠ a → c ≠ b → z.pipes c = x.pipes c) ∧
      (∃ ds, (z.doing i).offers = some (a, ds)) ∧ (∃ ds, (z.doing j).offers = some (b, ds)) ∧
      ∀ l, l ≠ i → l ≠ j → z.doing l = x.doing l := by
  have k1 : Byte t net (duo x i (.at si) j (.at sj)) (duo x i (.sending a p sent) j (.at sj)) :=
    alone_left hij (by rw [Doing.alone, h1])
  obtain ⟨n2, c1, as1, onErr1, p1, k2⟩ := send_stuck (t := t) hij (e := .at sj) sent p hxa hp hm
    hle hl
  have k3 : Byte t net
      (duo ⟨x.doing, setAt x.pipes a (xs ++ bs.take (m - xs.length))⟩ i
        (.sending a (.writeAll (c1 :: as1) onErr1 p1) sent) j
        (.at sj))
      (duo ⟨x.doing, setAt x.pipes a (xs ++ bs.take (m - xs.length))⟩ i
        (.sending a (.writeAll (c1 :: as1) onErr1 p1) sent) j
        (.sending b p' sent')) :=
    alone_right (by rw [Doing.alone, h3])
  obtain ⟨n4, c2, as2, onErr2, p2, k4⟩ := send_stuck (t := t) (net := net)
    (x := ⟨x.doing, setAt x.pipes a (xs ++ bs.take (m - xs.length))⟩) (c := b) (Ne.symm hij)
    (e := .sending a (.writeAll (c1 :: as1) onErr1 p1) sent) sent' p'
    (by dsimp only; rw [setAt_other _ _ (Ne.symm hab)]; exact hxb) hp' hm' hle' hl'
  rw [duo_comm _ (Ne.symm hij), duo_comm _ (Ne.symm hij)] at k4
  refine ⟨_, _, ((Bytes.cons k1 k2).append (.cons k3 .nil)).append k4, ?_, ?_, ?_, ?_, ?_, ?_, ?_⟩
  · rintro y ⟨l, e, d, hf, rfl⟩
    by_cases hli : l = i
    · subst hli
      refine full_quiet (duo_left hij _ _) hm ?_ hf
      simp only [duo]
      rw [setAt_other _ _ hab, setAt_same, List.length_append, List.length_take]
      omega
    · by_cases hlj : l = j
      · subst hlj
        refine full_quiet (duo_right _ _ _ _ _) hm' ?_ hf
        simp only [duo]
        rw [setAt_same, List.length_append, List.length_take]
        omega
      · refine over_fire hf ?_
        simp only [duo]
        rw [setAt_other _ _ hlj, setAt_other _ _ hli]
        exact hover l hli hlj
  · rw [duo_left hij]
    exact id
  · rw [duo_right]
    exact id
  · intro c hca hcb
    simp only [duo]
    rw [setAt_other _ _ hcb, setAt_other _ _ hca]
  · rw [duo_left hij]
    exact ⟨_, rfl⟩
  · rw [duo_right]
    exact ⟨_, rfl⟩
  · intro l hli hlj
    simp only [duo]
    rw [setAt_other _ _ hlj, setAt_other _ _ hli]

end Spec.Net
end Dlhn
