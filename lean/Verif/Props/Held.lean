import Verif.Proof.Held
import Verif.Props.Network
/-!
# C147: conversations in which pipes hold values
-/
namespace Dlhn.Props

open Spec hiding variantFields

/-- A conversation in whole values, some of which stay in pipes that have room for them, can be held
in bytes. -/
theorem C147_held {S : Type} (t : Target) (net : Net S) (hr : ∀ c, HasRoom (net.room c) 1) (n : Nat)
    (s s' : Nat → S) (pipes pipes' : Nat → List UInt8)
    (h : Steps (HeldStep t net) n (s, pipes) (s', pipes')) :
    ∃ k, n ≤ k ∧ NetRun t net k (holding s pipes) (holding s' pipes') := by
  obtain ⟨k, hk, hb⟩ := Net.helds_bytes hr h
  exact ⟨k, hk, Net.bytes_run hb⟩

/-- If after such a conversation all have ended and the pipes are empty, then every schedule of the
bytes ends with the same results, and none gets stuck. -/
theorem C147_held_ends {S : Type} (t : Target) (net : Net S) (hw : net.Wired)
    (hr : ∀ c, HasRoom (net.room c) 1) (n : Nat) (s s' : Nat → S)
    (h : Steps (HeldStep t net) n (s, fun _ => []) (s', fun _ => []))
    (he : ∀ i, net.act i (s' i) = .stop) :
    EndsIn (NetStep t net) (between s) (between s') ∧
    ∀ late, EndsIn (PipeStep t net late) (between s) (between s') := by
  obtain ⟨k, -, hk⟩ := C147_held t net hr n s s' _ _ h
  have hq := Net.quiet_rest (Net.stopped_quiet (t := t) he)
  exact ⟨C146_settled t net hw s k _ hk hq,
    C146_closed t net hw s k _ hk hq fun c _ => ⟨rfl, fun _ _ => nofun⟩⟩

/-! ### All requests first -/

theorem batch_wired (t : Target) (ty uy : Ty) (f : Val → Val) (room : Nat → Option Nat) :
    (batch t ty uy f room).Wired := by
  intro i s
  match i, s with
  | 0, .client [] 0 _ => exact trivial
  | 0, .client [] (_ + 1) _ => rfl
  | 0, .client (_ :: _) _ _ => rfl
  | 0, .serves => exact trivial
  | 0, .answers _ => exact trivial
  | 0, .closed => exact trivial
  | 0, .failed => exact trivial
  | 1, .client _ _ _ => exact trivial
  | 1, .serves => rfl
  | 1, .answers _ => rfl
  | 1, .closed => exact trivial
  | 1, .failed => exact trivial
  | _ + 2, _ => exact trivial

/-- What the two pipes hold. -/
def batchPipes (requests answers : List UInt8) : Nat → List UInt8
  | 0 => requests
  | 1 => answers
  | _ => []

theorem setAt_batchers (a b c d : Batch) :
    setAt (setAt (batchers a b) 0 c) 1 d = batchers c d ∧
    setAt (setAt (batchers a b) 1 d) 0 c = batchers c d ∧ setAt (batchers a b) 1 d = batchers a d ∧
    setAt (batchers a b) 0 c = batchers c b := by
  refine ⟨?_, ?_, ?_, ?_⟩ <;>
    (funext k; match k with
      | 0 => rfl
      | 1 => rfl
      | _ + 2 => rfl)

theorem setAt_batchPipes (a b c : List UInt8) :
    setAt (batchPipes a b) 0 c = batchPipes c b ∧ setAt (batchPipes a b) 1 c = batchPipes a c := by
  refine ⟨?_, ?_⟩ <;>
    (funext k; match k with
      | 0 => rfl
      | 1 => rfl
      | _ + 2 => rfl)

theorem _root_.Dlhn.Spec.Steps.trans.{u} {X : Type u} {step : X → X → Prop} {k l : Nat} {x y z : X}
    (h : Steps step k x y) (h' : Steps step l y z) : Steps step (k + l) x z := by
  induction h' with
  | start => exact h
  | step _ more ih => exact .step (ih h) more

/-- The bytes of values, one after the other. -/
abbrev encAll (vs : List Val) : List UInt8 := (vs.map fun v => (Ser.toVec v).1).flatten

section
variable (t : Target) (ty uy : Ty) (f : Val → Val) (room : Nat → Option Nat)

/-- The server answers, and the answers stay in the pipe. -/
theorem batch_answered (hm : 4096 ≤ t.memLimit) (hty : Supported ty) (huy : Supported uy)
    (hf : ∀ v, Has t ty v → Has t uy (f v)) (rest : List Val) :
    ∀ (vs done : List Val), HasRoom (room 1) (encAll ((done ++ vs).map f)).length →
    (∀ v ∈ vs, Has t ty v) →
    ∃ k, Steps (HeldStep t (batch t ty uy f room)) k
      (batchers (.client (vs ++ rest) done.length []) .serves, batchPipes [] (encAll (done.map f)))
      (batchers (.client rest (done ++ vs).length []) .serves,
        batchPipes [] (encAll ((done ++ vs).map f)))
  | [], done, _, _ => by
    rw [List.append_nil]
    exact ⟨0, .start⟩
  | v :: vs, done, hroom, hv => by
    have h1 := HeldStep.pass (t := t) (net := batch t ty uy f room)
      (s := batchers (.client (v :: (vs ++ rest)) done.length []) .serves)
      (pipes := batchPipes [] (encAll (done.map f))) (c := 0) (i := 0) (j := 1) (by decide) rfl rfl rfl
      (C147_typed t hm ty hty v (hv v (by simp)))
    rw [(setAt_batchers _ _ _ _).1] at h1
    have hfv := hf v (hv v (by simp))
    have h2 := HeldStep.put (t := t) (net := batch t ty uy f room)
      (s := batchers (.client (vs ++ rest) (done.length + 1) []) (.answers v))
      (pipes := batchPipes [] (encAll (done.map f))) (c := 1) (i := 1) (p := Ser.ser (f v))
      (bs := (Ser.toVec (f v)).1) rfl (by
        rw [Ser.toVec, Ser.exec_ser _ (De.has_ok t uy huy _ hfv).1 (De.has_ok t uy huy _ hfv).2])
      (by
        intro m hm'
        have := hroom m hm'
        simp only [encAll, List.map_append, List.map_cons, List.flatten_append, List.flatten_cons,
          List.length_append] at this
        show (encAll (done.map f)).length + _ ≤ m
        simp only [encAll]
        omega)
    rw [(setAt_batchers _ _ (.client (vs ++ rest) (done.length + 1) []) _).2.2.1,
      (setAt_batchPipes _ _ _).2] at h2
    obtain ⟨k, hk⟩ := batch_answered hm hty huy hf rest vs (done ++ [v])
      (by rw [List.append_assoc, List.singleton_append]; exact hroom) fun w hw => hv w (by simp [hw])
    have e1 : batchPipes [] (encAll (done.map f)) 1 ++ (Ser.toVec (f v)).1 =
        encAll ((done ++ [v]).map f) := by
      simp [encAll, batchPipes]
    rw [e1] at h2
    rw [List.append_assoc, List.singleton_append, List.length_append (as := done) (bs := [v]),
      List.length_singleton] at hk
    exact ⟨_, (Steps.step (.step .start h1) h2).trans hk⟩

/-- The client takes answers from the pipe. -/
theorem batch_collected (hm : 4096 ≤ t.memLimit) (huy : Supported uy)
    (hf : ∀ v, Has t ty v → Has t uy (f v)) (server : Batch) (n : Nat) (xs : List UInt8) :
    ∀ (vs got : List Val), (∀ v ∈ vs, Has t ty v) →
    ∃ k, Steps (HeldStep t (batch t ty uy f room)) k
      (batchers (.client [] (n + vs.length) got) server, batchPipes xs (encAll (vs.map f)))
      (batchers (.client [] n (got ++ vs.map f)) server, batchPipes xs [])
  | [], got, _ => by
    rw [List.map_nil, List.append_nil]
    exact ⟨0, .start⟩
  | v :: vs, got, hv => by
    have hfv := hf v (hv v (by simp))
    obtain ⟨bs, e1, e2⟩ := C147_typed t hm uy huy (f v) hfv
    have e3 : (Ser.toVec (f v)).1 = bs := by rw [Ser.toVec, e1]
    have h1 := HeldStep.take (t := t) (net := batch t ty uy f room)
      (s := batchers (.client [] (n + vs.length + 1) got) server)
      (pipes := batchPipes xs (encAll ((v :: vs).map f))) (c := 1) (j := 0) (bs := bs)
      (left := encAll (vs.map f)) rfl (by simp [batchPipes, encAll, e3]) e2
    rw [(setAt_batchers _ _ _ server).2.2.2, (setAt_batchPipes _ _ _).2] at h1
    obtain ⟨k, hk⟩ := batch_collected hm huy hf server n xs vs (got ++ [f v])
      fun w hw => hv w (by simp [hw])
    rw [List.append_assoc, List.singleton_append] at hk
    exact ⟨_, (Steps.step .start h1).trans hk⟩

/-- The client puts requests into the pipe. -/
theorem batch_queued (hty : Supported ty) (server : Batch) (rest : List Val) (ys : List UInt8) :
    ∀ (vs : List Val) (n : Nat) (xs : List UInt8),
    HasRoom (room 0) (xs.length + (encAll vs).length) → (∀ v ∈ vs, Has t ty v) →
    ∃ k, Steps (HeldStep t (batch t ty uy f room)) k
      (batchers (.client (vs ++ rest) n []) server, batchPipes xs ys)
      (batchers (.client rest (n + vs.length) []) server, batchPipes (xs ++ encAll vs) ys)
  | [], n, xs, _, _ => by
    rw [show encAll [] = [] from rfl, List.append_nil]
    exact ⟨0, .start⟩
  | v :: vs, n, xs, hroom, hv => by
    have hfv := hv v (by simp)
    have h2 := HeldStep.put (t := t) (net := batch t ty uy f room)
      (s := batchers (.client (v :: (vs ++ rest)) n []) server)
      (pipes := batchPipes xs ys) (c := 0) (i := 0) (p := Ser.ser v)
      (bs := (Ser.toVec v).1) rfl (by
        rw [Ser.toVec, Ser.exec_ser _ (De.has_ok t ty hty _ hfv).1 (De.has_ok t ty hty _ hfv).2])
      (by
        intro m hm'
        have := hroom m hm'
        simp only [encAll, List.map_cons, List.flatten_cons, List.length_append] at this
        show xs.length + _ ≤ m
        omega)
    rw [(setAt_batchers _ _ _ server).2.2.2, (setAt_batchPipes _ _ _).1] at h2
    obtain ⟨k, hk⟩ := batch_queued hty server rest ys vs (n + 1) (xs ++ (Ser.toVec v).1)
      (by
        intro m hm'
        have := hroom m hm'
        simp only [encAll, List.map_cons, List.flatten_cons, List.length_append] at this
        simp only [encAll, List.length_append]
        omega) fun w hw => hv w (by simp [hw])
    rw [show n + 1 + vs.length = n + (v :: vs).length by simp; omega,
      show xs ++ (Ser.toVec v).1 ++ encAll vs = xs ++ encAll (v :: vs) by simp [encAll]] at hk
    exact ⟨_, (Steps.step .start h2).trans hk⟩

/-- The server takes requests from the pipe, and hands its answers to the client. -/
theorem batch_served (hm : 4096 ≤ t.memLimit) (hty : Supported ty) (huy : Supported uy)
    (hf : ∀ v, Has t ty v → Has t uy (f v)) :
    ∀ (vs : List Val) (got : List Val), (∀ v ∈ vs, Has t ty v) →
    ∃ k, Steps (HeldStep t (batch t ty uy f room)) k
      (batchers (.client [] vs.length got) .serves, batchPipes (encAll vs) [])
      (batchers (.client [] 0 (got ++ vs.map f)) .serves, batchPipes [] [])
  | [], got, _ => by
    rw [List.map_nil, List.append_nil]
    exact ⟨0, .start⟩
  | v :: vs, got, hv => by
    obtain ⟨bs, e1, e2⟩ := C147_typed t hm ty hty v (hv v (by simp))
    have e3 : (Ser.toVec v).1 = bs := by rw [Ser.toVec, e1]
    have h1 := HeldStep.take (t := t) (net := batch t ty uy f room)
      (s := batchers (.client [] (vs.length + 1) got) .serves)
      (pipes := batchPipes (encAll (v :: vs)) []) (c := 0) (j := 1) (bs := bs)
      (left := encAll vs) rfl (by simp [batchPipes, encAll, e3]) e2
    rw [(setAt_batchers _ _ (.client [] (vs.length + 1) got) _).2.2.1, (setAt_batchPipes _ _ _).1] at h1
    have h2 := HeldStep.pass (t := t) (net := batch t ty uy f room)
      (s := batchers (.client [] (vs.length + 1) got) (.answers v))
      (pipes := batchPipes (encAll vs) []) (c := 1) (i := 1) (j := 0) (by decide) rfl rfl rfl
      (C147_typed t hm uy huy (f v) (hf v (hv v (by simp))))
    rw [(setAt_batchers _ _ _ _).2.1] at h2
    obtain ⟨k, hk⟩ := batch_served hm hty huy hf vs (got ++ [f v]) fun w hw => hv w (by simp [hw])
    rw [List.append_assoc, List.singleton_append] at hk
    exact ⟨_, (Steps.step (.step .start h1) h2).trans hk⟩

theorem batchPipes_empty : batchPipes [] [] = fun _ => [] := by
  funext k
  match k with
  | 0 => rfl
  | 1 => rfl
  | _ + 2 => rfl

/-- The first element with which a condition ceases to hold. -/
theorem first_beyond {α : Type} (P : List α → Prop) (h0 : P []) :
    ∀ vs done : List α, P done → ¬ P (done ++ vs) →
    ∃ as v bs, vs = as ++ v :: bs ∧ P (done ++ as) ∧ ¬ P (done ++ (as ++ [v]))
  | [], done, h, hn => absurd (by rw [List.append_nil]; exact h) hn
  | v :: vs, done, h, hn => by
    by_cases hv : P (done ++ [v])
    · obtain ⟨as, w, bs, h1, h2, h3⟩ := first_beyond P h0 vs (done ++ [v]) hv (by
        rw [List.append_assoc, List.singleton_append]; exact hn)
      refine ⟨v :: as, w, bs, by rw [h1]; rfl, ?_, ?_⟩
      · rw [List.append_assoc, List.singleton_append] at h2; exact h2
      · rw [List.append_assoc, List.singleton_append] at h3; exact h3
    · exact ⟨[], v, vs, rfl, by rw [List.append_nil]; exact h, hv⟩

/-- A client that sends all its requests before it receives the answers, and a server that answers
one request after the other. Suppose that, whichever request the server is answering, the answers up
to this one fit their pipe together, or the requests behind it fit theirs together. Then however the
two are scheduled the client gets all the answers, both end, and they are never stuck. -/
theorem C147_batch (hm : 4096 ≤ t.memLimit) (hty : Supported ty) (huy : Supported uy)
    (hf : ∀ v, Has t ty v → Has t uy (f v)) (hr : ∀ c, HasRoom (room c) 1) (vs : List Val)
    (hv : ∀ v ∈ vs, Has t ty v)
    (h : ∀ as v bs, vs = as ++ v :: bs →
      HasRoom (room 1) (encAll ((as ++ [v]).map f)).length ∨ HasRoom (room 0) (encAll bs).length)
    (e : DeErr) (he : Prog.run t (De.de t ty) [] = .err e) :
    EndsIn (NetStep t (batch t ty uy f room)) (between (batchers (.client vs 0 []) .serves))
      (between (batchers (.client [] 0 (vs.map f)) .closed)) ∧
    ∀ late, EndsIn (PipeStep t (batch t ty uy f room) late)
      (between (batchers (.client vs 0 []) .serves))
      (between (batchers (.client [] 0 (vs.map f)) .closed)) := by
  have h1 : ∃ k, Steps (HeldStep t (batch t ty uy f room)) k
      (batchers (.client vs 0 []) .serves, batchPipes [] [])
      (batchers (.client [] 0 (vs.map f)) .serves, batchPipes [] []) := by
    by_cases hall : HasRoom (room 1) (encAll (vs.map f)).length
    · obtain ⟨k, hk⟩ := batch_answered t ty uy f room hm hty huy hf [] vs [] hall hv
      obtain ⟨l, hl⟩ := batch_collected t ty uy f room hm huy hf .serves 0 [] vs [] hv
      rw [Nat.zero_add] at hl
      rw [List.append_nil] at hk
      exact ⟨_, hk.trans hl⟩
    · obtain ⟨as, v, bs, rfl, h2, h3⟩ := first_beyond
        (fun l => HasRoom (room 1) (encAll (l.map f)).length) (fun m _ => Nat.zero_le _) vs []
        (fun m _ => Nat.zero_le _) hall
      have h4 := (h as v bs rfl).resolve_left h3
      obtain ⟨k1, s1⟩ := batch_answered t ty uy f room hm hty huy hf (v :: bs) as [] h2
        fun w hw => hv w (by simp [hw])
      have s2 := HeldStep.pass (t := t) (net := batch t ty uy f room)
        (s := batchers (.client (v :: bs) as.length []) .serves)
        (pipes := batchPipes [] (encAll (as.map f))) (c := 0) (i := 0) (j := 1) (by decide) rfl rfl
        rfl (C147_typed t hm ty hty v (hv v (by simp)))
      rw [(setAt_batchers _ _ _ _).1] at s2
      obtain ⟨k3, s3⟩ := batch_queued t ty uy f room hty (.answers v) [] (encAll (as.map f)) bs
        (as.length + 1) [] (by simpa using h4) fun w hw => hv w (by simp [hw])
      obtain ⟨k4, s4⟩ := batch_collected t ty uy f room hm huy hf (.answers v) (bs.length + 1)
        (encAll bs) as [] fun w hw => hv w (by simp [hw])
      have s5 := HeldStep.pass (t := t) (net := batch t ty uy f room)
        (s := batchers (.client [] (bs.length + 1) (as.map f)) (.answers v))
        (pipes := batchPipes (encAll bs) []) (c := 1) (i := 1) (j := 0) (by decide) rfl rfl rfl
        (C147_typed t hm uy huy (f v) (hf v (hv v (by simp))))
      rw [(setAt_batchers _ _ _ _).2.1] at s5
      obtain ⟨k6, s6⟩ := batch_served t ty uy f room hm hty huy hf bs (as.map f ++ [f v])
        fun w hw => hv w (by simp [hw])
      rw [List.append_nil, List.nil_append,
        show as.length + 1 + bs.length = bs.length + 1 + as.length by omega] at s3
      rw [show as.map f ++ [f v] ++ bs.map f = (as ++ v :: bs).map f by simp] at s6
      exact ⟨_, (Steps.step (((Steps.step s1 s2).trans s3).trans s4) s5).trans s6⟩
  obtain ⟨k, hk⟩ := h1
  have h2 := HeldStep.closed (t := t) (net := batch t ty uy f room)
    (s := batchers (.client [] 0 (vs.map f)) .serves) (pipes := batchPipes [] []) (j := 1) (c := 0)
    rfl rfl rfl he
  rw [(setAt_batchers _ _ (.client [] 0 []) _).2.2.1] at h2
  have h3 := Steps.step hk h2
  rw [batchPipes_empty] at h3
  refine C147_held_ends t _ (batch_wired t ty uy f room) hr _ _ _ h3 fun i => ?_
  match i with
  | 0 => rfl
  | 1 => rfl
  | _ + 2 => rfl

/-- Otherwise they get stuck, however they are scheduled, in the same state, in which neither has
ended. -/
theorem C147_batch_deadlock (hm : 4096 ≤ t.memLimit) (hty : Supported ty) (huy : Supported uy)
    (hf : ∀ v, Has t ty v → Has t uy (f v)) (hr : ∀ c, HasRoom (room c) 1) (vs : List Val)
    (hv : ∀ v ∈ vs, Has t ty v)
    (h : ∃ as v bs, vs = as ++ v :: bs ∧
      ¬ HasRoom (room 1) (encAll ((as ++ [v]).map f)).length ∧ ¬ HasRoom (room 0) (encAll bs).length) :
    ∃ z, (∀ i, i < 2 → ¬ (z.doing i).Over ((batch t ty uy f room).act i)) ∧
      EndsIn (NetStep t (batch t ty uy f room)) (between (batchers (.client vs 0 []) .serves)) z ∧
      ∀ late, EndsIn (PipeStep t (batch t ty uy f room) late)
        (between (batchers (.client vs 0 []) .serves)) z := by
  have more : ∀ {r : Option Nat} {n m : Nat}, HasRoom r m → n ≤ m → HasRoom r n :=
    fun h hle k hk => Nat.le_trans hle (h k hk)
  obtain ⟨as0, v0, bs0, h1, h2, h3⟩ := h
  have hall : ¬ HasRoom (room 1) (encAll (vs.map f)).length := by
    refine fun hx => h2 (more hx ?_)
    rw [h1]
    simp [encAll]
  obtain ⟨as, v, bs, h4, h5, h6⟩ := first_beyond
    (fun l => HasRoom (room 1) (encAll (l.map f)).length) (fun m _ => Nat.zero_le _) vs []
    (fun m _ => Nat.zero_le _) hall
  rw [List.nil_append] at h5 h6
  have h7 : ¬ HasRoom (room 0) (encAll bs).length := by
    have h8 := h4.symm.trans h1
    rcases List.append_eq_append_iff.mp h8 with ⟨c, c1, c2⟩ | ⟨c, c1, c2⟩
    · cases c with
      | nil =>
        cases c2
        exact h3
      | cons x c =>
        rw [List.cons_append] at c2
        cases c2
        refine fun hx => h3 (more hx ?_)
        simp [encAll]
        omega
    · cases c with
      | nil =>
        cases c2
        exact h3
      | cons x c =>
        rw [List.cons_append] at c2
        cases c2
        refine absurd (more h5 ?_) h2
        rw [c1]
        simp [encAll]
  obtain ⟨cs, w, ds, h8, h9, h10⟩ := first_beyond
    (fun l => HasRoom (room 0) (encAll l).length) (fun m _ => Nat.zero_le _) bs []
    (fun m _ => Nat.zero_le _) h7
  rw [List.nil_append] at h9 h10
  subst h8 h4
  obtain ⟨k1, s1⟩ := batch_answered t ty uy f room hm hty huy hf (v :: (cs ++ w :: ds)) as [] h5
    fun w hw => hv w (by simp [hw])
  have s2 := HeldStep.pass (t := t) (net := batch t ty uy f room)
    (s := batchers (.client (v :: (cs ++ w :: ds)) as.length []) .serves)
    (pipes := batchPipes [] (encAll (as.map f))) (c := 0) (i := 0) (j := 1) (by decide) rfl rfl
    rfl (C147_typed t hm ty hty v (hv v (by simp)))
  rw [(setAt_batchers _ _ _ _).1] at s2
  obtain ⟨k3, s3⟩ := batch_queued t ty uy f room hty (.answers v) (w :: ds) (encAll (as.map f)) cs
    (as.length + 1) [] (by simpa using h9) fun w hw => hv w (by simp [hw])
  rw [List.nil_append] at s3
  have s4 := (Steps.step s1 s2).trans s3
  obtain ⟨k, -, b1⟩ := Net.helds_bytes hr s4
  have small : ∀ {r : Option Nat} {n : Nat}, ¬ HasRoom r n → ∃ m, r = some m ∧ m < n := by
    intro r n hn
    cases r with
    | none => exact absurd (fun m hm => by cases hm) hn
    | some m =>
      refine ⟨m, rfl, Nat.lt_of_not_le fun hle => hn ?_⟩
      intro m' hm'
      cases hm'
      exact hle
  obtain ⟨m, hm0, hl⟩ := small h10
  obtain ⟨m', hm1, hl'⟩ := small h6
  have hw := hv w (by simp)
  have hfv := hf v (hv v (by simp))
  have e1 := Ser.exec_ser w (De.has_ok t ty hty w hw).1 (De.has_ok t ty hty w hw).2
  have e2 := Ser.exec_ser (f v) (De.has_ok t uy huy _ hfv).1 (De.has_ok t uy huy _ hfv).2
  have e3 : (Ser.toVec w).1 = wire w := by rw [Ser.toVec, e1]
  have e4 : (Ser.toVec (f v)).1 = wire (f v) := by rw [Ser.toVec, e2]
  obtain ⟨n, z, g1, g2, g3, g4, g5, ⟨_, g6⟩, ⟨_, g7⟩, g8⟩ := Net.deadlock (t := t)
    (net := batch t ty uy f room)
    (x := holding (batchers (.client (w :: ds) (as.length + 1 + cs.length) []) (.answers v))
      (batchPipes (encAll cs) (encAll (as.map f))))
    (i := 0) (j := 1) (a := 0) (b := 1) (by decide) (by decide) rfl rfl (fun l h0 h1 => by
      match l, h0, h1 with
      | 0, h0, _ => exact absurd rfl h0
      | 1, _, h1 => exact absurd rfl h1
      | _ + 2, _, _ => rfl)
    (si := .client (w :: ds) (as.length + 1 + cs.length) []) (sj := .answers v) rfl rfl e1 e2 hm0 hm1
    (h9 m hm0) (h5 m' hm1) (by
      simp only [encAll, List.map_append, List.map_cons, List.map_nil, List.flatten_append,
        List.flatten_cons, List.flatten_nil, List.append_nil, List.length_append, e3] at hl
      exact hl) (by
      simp only [encAll, List.map_append, List.map_cons, List.map_nil, List.flatten_append,
        List.flatten_cons, List.flatten_nil, List.append_nil, List.length_append, e4] at hl'
      exact hl')
  have e5 := Net.holding_duo (batchers (.client (w :: ds) (as.length + 1 + cs.length) []) (.answers v))
    (batchPipes (encAll cs) (encAll (as.map f))) 0 1
  rw [show batchers (.client (w :: ds) (as.length + 1 + cs.length) []) (.answers v) 0 =
      .client (w :: ds) (as.length + 1 + cs.length) [] from rfl,
    show batchers (.client (w :: ds) (as.length + 1 + cs.length) []) (.answers v) 1 = .answers v
      from rfl] at e5
  rw [← e5] at g1
  have g := Net.bytes_run (b1.append g1)
  rw [show holding (batchers (.client (as ++ v :: (cs ++ w :: ds)) ([] : List Val).length []) .serves)
    (batchPipes [] (encAll (([] : List Val).map f))) =
    between (batchers (.client (as ++ v :: (cs ++ w :: ds)) 0 []) .serves) by
      rw [between, ← batchPipes_empty]; rfl] at g
  refine ⟨z, fun i hi => ?_, C146_settled t _ (batch_wired t ty uy f room) _ _ z g
    (Net.quiet_rest g2), C146_closed t _ (batch_wired t ty uy f room) _ _ z g
    (Net.quiet_rest g2) fun c hc => ?_⟩
  · match i, hi with
    | 0, _ => exact g3
    | 1, _ => exact g4
  · match c, hc with
    | 0, hc => exact absurd hc g4
    | 1, hc => exact absurd hc g3
    | c + 2, _ =>
      refine ⟨g5 _ (by omega) (by omega), fun i bs => ?_⟩
      match i with
      | 0 => rw [g6]; simp
      | 1 => rw [g7]; simp
      | i + 2 => rw [g8 _ (by omega) (by omega)]; exact nofun

end

/-- Through pipes of one byte, a client that sends three bytes before it reads the three answers
always gets them … -/
example (t : Target) (hm : 4096 ≤ t.memLimit) (a b c : UInt8) :
    EndsIn (NetStep t (batch t .u8 .u8 (fun v => v) fun _ => some 1))
      (between (batchers (.client [.u8 a, .u8 b, .u8 c] 0 []) .serves))
      (between (batchers (.client [] 0 [.u8 a, .u8 b, .u8 c]) .closed)) := by
  refine (C147_batch t .u8 .u8 (fun v => v) (fun _ => some 1) hm trivial trivial (fun v hv => hv)
    (fun _ m h => by cases h; exact Nat.le_refl _) [.u8 a, .u8 b, .u8 c]
    (by simp [Has]) (fun as v bs h => ?_) .read rfl).1
  match as, h with
  | [], h =>
    cases h
    exact .inl fun m h => by cases h; exact Nat.le_refl _
  | [_], h =>
    cases h
    exact .inr fun m h => by cases h; exact Nat.le_refl _
  | [_, _], h =>
    cases h
    exact .inr fun m h => Nat.zero_le _
  | _ :: _ :: _ :: as, h => simp at h

/-- … and with four it never does. -/
example (t : Target) (hm : 4096 ≤ t.memLimit) (a b c d : UInt8) :
    ∃ z, (∀ i, i < 2 → ¬ (z.doing i).Over ((batch t .u8 .u8 (fun v => v) fun _ => some 1).act i)) ∧
      EndsIn (NetStep t (batch t .u8 .u8 (fun v => v) fun _ => some 1))
        (between (batchers (.client [.u8 a, .u8 b, .u8 c, .u8 d] 0 []) .serves)) z := by
  obtain ⟨z, h1, h2, -⟩ := C147_batch_deadlock t .u8 .u8 (fun v => v) (fun _ => some 1) hm trivial
    trivial (fun v hv => hv) (fun _ m h => by cases h; exact Nat.le_refl _)
    [.u8 a, .u8 b, .u8 c, .u8 d] (by simp [Has])
    ⟨[.u8 a], .u8 b, [.u8 c, .u8 d], rfl, fun h => absurd (h 1 rfl) (show ¬ 2 ≤ 1 by decide),
      fun h => absurd (h 1 rfl) (show ¬ 2 ≤ 1 by decide)⟩
  exact ⟨z, h1, h2⟩

end Dlhn.Props
