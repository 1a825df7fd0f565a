import Verif.Proof.Network
import Verif.Spec.Held
/-!
# Lemmas about conversations in which pipes hold values
-/
namespace Dlhn
open Spec
namespace Spec.Net

variable {S : Type}

theorem holding_duo (s : Nat → S) (pipes : Nat → List UInt8) (i j : Nat) :
    holding s pipes = duo (holding s pipes) i (.at (s i)) j (.at (s j)) := by
  simp only [duo, holding]
  congr 1
  funext k
  simp only [setAt]
  split
  · rename_i hk; rw [hk]
  · split
    · rename_i hk; rw [hk]
    · rfl

theorem duo_holding {s s' : Nat → S} {pipes pipes' : Nat → List UInt8} {i j : Nat} {a b : S}
    (hi : s' i = a) (hj : s' j = b) (h : ∀ k, k ≠ i → k ≠ j → s' k = s k) :
    duo ⟨(holding s pipes).doing, pipes'⟩ i (.at a) j (.at b) = holding s' pipes' := by
  simp only [duo, holding]
  congr 1
  funext k
  simp only [setAt]
  split
  · rename_i hk; rw [hk, hj]
  · split
    · rename_i hk; rw [hk, hi]
    · rw [h k (by assumption) (by assumption)]

theorem held_bytes {t : Target} {net : Net S} (hr : ∀ c, HasRoom (net.room c) 1)
    {x y : (Nat → S) × (Nat → List UInt8)} (h : HeldStep t net x y) :
    ∃ n, 1 ≤ n ∧ Bytes t net n (holding x.1 x.2) (holding y.1 y.2) := by
  cases h with
  | @put s pipes ε c i p sent bs hs hp hroom =>
    have hij : i ≠ i + 1 := by omega
    have h1 : Byte t net (duo (holding s pipes) i (.at (s i)) (i + 1) (.at (s (i + 1))))
        (duo (holding s pipes) i (.sending c p sent) (i + 1) (.at (s (i + 1)))) :=
      alone_left hij (by rw [Doing.alone, hs])
    obtain ⟨n, p', hp', h2⟩ := fill (t := t) (net := net) (c := c) hij (e := .at (s (i + 1))) sent bs
      (x := holding s pipes) p (bs := []) (by rw [List.append_nil]; exact hp) hroom
    obtain ⟨m, h3⟩ := send_done (t := t) (net := net)
      (x := ⟨(holding s pipes).doing, setAt pipes c (pipes c ++ bs)⟩) (c := c) hij
      (e := .at (s (i + 1))) sent p' hp'
    have h4 := (Bytes.cons h1 h2).append h3
    rw [← holding_duo, duo_holding (s' := setAt s i (sent (.ok ()))) (setAt_same _ _ _)
      (setAt_other _ _ (Ne.symm hij)) (fun k hk _ => setAt_other _ _ hk)] at h4
    exact ⟨_, by omega, h4⟩
  | @take s pipes δ α c j q heard v bs left hs hx hv =>
    have hij : j + 1 ≠ j := by omega
    have h1 : Byte t net (duo (holding s pipes) (j + 1) (.at (s (j + 1))) j (.at (s j)))
        (duo (holding s pipes) (j + 1) (.at (s (j + 1))) j (.receiving c q [] heard)) :=
      alone_right (by rw [Doing.alone, hs])
    obtain ⟨n, h2⟩ := drain_front (t := t) (net := net) (c := c) (i := j + 1) (j := j)
      (d := .at (s (j + 1))) heard v q (x := holding s pipes) bs left hx hv
    have h4 := Bytes.cons h1 h2
    rw [← holding_duo, duo_holding (s' := setAt s j (heard (.ok v))) (setAt_other _ _ hij)
      (setAt_same _ _ _) (fun k _ hk => setAt_other _ _ hk)] at h4
    exact ⟨_, by omega, h4⟩
  | @pass s pipes ε δ α c i j p q sent heard v hne hx hs hr' hv =>
    obtain ⟨bs, hp, hq⟩ := hv
    obtain ⟨n, hn⟩ := pump (t := t) (net := net) (x := holding s pipes) hne hx (hr c) sent heard v q
      bs.length [] p bs (Nat.le_refl _) hp (by cases q <;> simp [Fits]) (by simpa using hq)
    have h1 : Byte t net (duo (holding s pipes) i (.at (s i)) j (.at (s j)))
        (duo (holding s pipes) i (.sending c p sent) j (.at (s j))) :=
      alone_left hne (by rw [Doing.alone, hs])
    have h2 : Byte t net (duo (holding s pipes) i (.sending c p sent) j (.at (s j)))
        (duo (holding s pipes) i (.sending c p sent) j (.receiving c q [] heard)) :=
      alone_right (by rw [Doing.alone, hr'])
    have h3 := Bytes.cons h1 (.cons h2 hn)
    have e1 := duo_holding (s := s) (pipes := pipes) (pipes' := pipes)
      (s' := setAt (setAt s i (sent (.ok ()))) j (heard (.ok v))) (i := i) (j := j)
      (by rw [setAt_other _ _ hne, setAt_same]) (setAt_same _ _ _)
      (fun k hk hk' => by rw [setAt_other _ _ hk', setAt_other _ _ hk])
    rw [← holding_duo] at h3
    refine ⟨_, ?_, e1 ▸ h3⟩
    omega
  | @closed s pipes δ α c j q heard e hx hr' hs hv =>
    have hj : net.writer c ≠ j := by
      rintro rfl
      rw [hs] at hr'
      cases hr'
    obtain ⟨n, hn⟩ := hangup (t := t) (net := net) (x := holding s pipes) hx hj hs heard q hv
    have h1 : Byte t net (holding s pipes)
        ⟨setAt (holding s pipes).doing j (.receiving c q [] heard), pipes⟩ :=
      ⟨j, .none, _, .alone (by
        simp only [holding]
        rw [Doing.alone, hr']), rfl⟩
    have e1 : holding (setAt s j (heard (.error e))) pipes =
        ⟨setAt (holding s pipes).doing j (.at (heard (.error e))), pipes⟩ := by
      simp only [holding]
      congr 1
      funext k
      simp only [setAt]
      split <;> rfl
    dsimp only
    rw [e1]
    exact ⟨n + 1, by omega, .cons h1 hn⟩

theorem helds_bytes {t : Target} {net : Net S} (hr : ∀ c, HasRoom (net.room c) 1) {k : Nat}
    {x y : (Nat → S) × (Nat → List UInt8)} (h : Steps (HeldStep t net) k x y) :
    ∃ n, k ≤ n ∧ Bytes t net n (holding x.1 x.2) (holding y.1 y.2) := by
  induction h with
  | start => exact ⟨0, Nat.le_refl _, .nil⟩
  | step h more ih =>
    obtain ⟨n, hn, h1⟩ := ih
    obtain ⟨m, hm, h2⟩ := held_bytes hr more
    exact ⟨n + m, by omega, h1.append h2⟩

end Spec.Net
end Dlhn
