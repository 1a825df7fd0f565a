import Verif.Proof.Network
import Verif.Props.Typed
import Verif.Props.Body
import Verif.Props.DeriveDe
/-!
# C146, C147: programs connected by pipes

`NetRun t net n x y` of `Spec/Network.lean` says that some schedule of `n` steps leads from `x` to
`y`, and `EndsIn (NetStep t net) x z` that all schedules from `x` end in `z`; `Talk` is about whole
values instead of bytes.
-/
namespace Dlhn.Props

open Spec hiding variantFields
open Derive

/-! ## C146 -/

/-- Whatever two schedules have done to the same programs, they can be continued so that they meet. -/
theorem C146_confluent {S : Type} (t : Target) (net : Net S) (hw : net.Wired) (s : Nat → S)
    (k l : Nat) (x y : NetState S) (hx : NetRun t net k (between s) x)
    (hy : NetRun t net l (between s) y) : ∃ m n z, NetRun t net m x z ∧ NetRun t net n y z := by
  obtain ⟨_, -, h1⟩ := Net.run_bytes hx
  obtain ⟨_, -, h2⟩ := Net.run_bytes hy
  obtain ⟨z, m, n, h3, h4⟩ := Net.confluent hw (Net.between_owned net s) h1 h2
  exact ⟨m, n, z, Net.bytes_run h3, Net.bytes_run h4⟩

/-- If some schedule comes to rest, in success or in a deadlock, then all schedules come to rest
there: all are bounded in length, all can be continued to that state, and none rests elsewhere. -/
theorem C146_settled {S : Type} (t : Target) (net : Net S) (hw : net.Wired) (s : Nat → S) (k : Nat)
    (z : NetState S) (hz : NetRun t net k (between s) z) (hr : AtRest t net z) :
    EndsIn (NetStep t net) (between s) z := by
  obtain ⟨n, -, h1⟩ := Net.run_bytes hz
  have hq := Net.rest_quiet hr
  refine ⟨n, fun l y hy => ?_⟩
  obtain ⟨m, hm, h2⟩ := Net.run_bytes hy
  obtain ⟨h3, h4⟩ := Net.descends hw (Net.between_owned net s) h1 hq h2
  refine ⟨by omega, ⟨_, Net.bytes_run h4⟩, fun hy' => ?_, fun hy' => hy' ▸ hr⟩
  generalize n - m = r at h4
  cases h4 with
  | nil => rfl
  | cons hb more => exact absurd hb (Net.rest_quiet hy' _)

/-- If schedules of any length exist, then none comes to rest. -/
theorem C146_endless {S : Type} (t : Target) (net : Net S) (hw : net.Wired) (s : Nat → S)
    (hs : ∀ n, ∃ k x, n ≤ k ∧ NetRun t net k (between s) x) (l : Nat) (y : NetState S)
    (hy : NetRun t net l (between s) y) : ¬ AtRest t net y := by
  intro hr
  obtain ⟨most, h⟩ := C146_settled t net hw s l y hy hr
  obtain ⟨k, x, hk, hx⟩ := hs (most + 1)
  have := (h k x hx).1
  omega

/-- The same with pipes that are closed when their reader ends, if in the end nothing is on its way
to a program that has ended: then no write ever fails. -/
theorem C146_closed {S : Type} (t : Target) (net : Net S) (hw : net.Wired) (s : Nat → S) (k : Nat)
    (z : NetState S) (hz : NetRun t net k (between s) z) (hr : AtRest t net z)
    (hd : Arrived net z) (late : Bool) : EndsIn (PipeStep t net late) (between s) z :=
  Net.pipe_ends hw (Net.between_owned net s) hd (C146_settled t net hw s k z hz hr)

/-- A program that sends one value to another, which does not read it but ends when a third one has
ended; it remembers whether serializing has returned `Ok`. -/
def unread (t : Target) : Net (Option Bool) where
  act i s := match i, s with
    | 0, none => .send 0 (Ser.ser (.u8 7)) fun
      | .ok _ => some true
      | .error _ => some false
    | 1, none => .recv 1 (De.de t .u8) fun _ => some true
    | _, _ => .stop
  writer c := if c = 0 then 0 else 2
  reader _ := 1
  room _ := none

/-- What the first two of its programs do, and what is in its first pipe. -/
def unreadAt (d d' : Doing (Option Bool)) (bs : List UInt8) : NetState (Option Bool) :=
  ⟨fun i => match i with
    | 0 => d
    | 1 => d'
    | _ => .at none, fun c => match c with
    | 0 => bs
    | _ => []⟩

theorem unreadAt_set (d d' e : Doing (Option Bool)) (bs cs : List UInt8) :
    setAt (unreadAt d d' bs).doing 0 e = (unreadAt e d' bs).doing ∧
    setAt (unreadAt d d' bs).doing 1 e = (unreadAt d e bs).doing ∧
    setAt (unreadAt d d' bs).pipes 0 cs = (unreadAt d d' cs).pipes := by
  refine ⟨?_, ?_, ?_⟩ <;>
    (funext k; match k with
      | 0 => rfl
      | 1 => rfl
      | _ + 2 => rfl)

theorem unreadAt_rest (t : Target) (b : Bool) (bs : List UInt8) :
    ¬ ∃ z, PipeStep t (unread t) false (unreadAt (.at (some b)) (.at (some true)) bs) z := by
  have hx : ∀ i, ((unreadAt (.at (some b)) (.at (some true)) bs).doing i).Over ((unread t).act i) := by
    intro i
    match i with
    | 0 => rfl
    | 1 => rfl
    | i + 2 => rfl
  rintro ⟨z, hz⟩
  cases hz with
  | alone i h => exact Net.over_fire (.alone h) (hx i)
  | write i n h h1 h2 hr ho => exact ho.elim nofun fun ho => ho (hx _)
  | broken i e h ho =>
    obtain ⟨ε, onErr, k, next, -, hd⟩ := Net.offers_some h
    have := hx i
    rw [hd] at this
    exact this
  | read i n h h1 h2 hr =>
    have := hx i
    obtain ⟨-, ε, α, got, next, n, onErr, -, ⟨k, hd⟩ | ⟨k, hd⟩⟩ := Net.needs_some h <;>
      (rw [hd] at this; exact this)
  | ended i h he ho =>
    have := hx i
    obtain ⟨-, ε, α, got, next, n, onErr, -, ⟨k, hd⟩ | ⟨k, hd⟩⟩ := Net.needs_some h <;>
      (rw [hd] at this; exact this)

/-- If something is on its way to a program that has ended, the results can depend on timing: two
schedules of the same programs come to rest, after one serializing has returned `Ok` and after the
other an error. -/
theorem C146_timing (t : Target) : (unread t).Wired ∧ ∃ k x l y,
    Steps (PipeStep t (unread t) false) k (between fun _ => none) x ∧
    (¬ ∃ z, PipeStep t (unread t) false x z) ∧ x.doing 0 = .at (some true) ∧
    Steps (PipeStep t (unread t) false) l (between fun _ => none) y ∧
    (¬ ∃ z, PipeStep t (unread t) false y z) ∧ y.doing 0 = .at (some false) := by
  refine ⟨fun i s => ?_, ?_⟩
  · match i, s with
    | 0, none => rfl
    | 0, some _ => exact trivial
    | 1, none => rfl
    | 1, some _ => exact trivial
    | _ + 2, _ => exact trivial
  have start : between (fun _ => none) = unreadAt (.at none) (.at none) [] := by
    simp only [between, unreadAt]
    congr 1
    · funext k
      match k with
      | 0 => rfl
      | 1 => rfl
      | _ + 2 => rfl
    · funext k
      match k with
      | 0 => rfl
      | _ + 1 => rfl
  have left : ∀ {d d' e : Doing (Option Bool)} {bs : List UInt8},
      d.alone t ((unread t).act 0) = some e →
      PipeStep t (unread t) false (unreadAt d d' bs) (unreadAt e d' bs) := by
    intro d d' e bs h
    have := PipeStep.alone (t := t) (net := unread t) (late := false) (x := unreadAt d d' bs) 0 h
    rw [(unreadAt_set _ _ _ _ []).1] at this
    exact this
  have right : ∀ {d d' e : Doing (Option Bool)} {bs : List UInt8},
      d'.alone t ((unread t).act 1) = some e →
      PipeStep t (unread t) false (unreadAt d d' bs) (unreadAt d e bs) := by
    intro d d' e bs h
    have := PipeStep.alone (t := t) (net := unread t) (late := false) (x := unreadAt d d' bs) 1 h
    rw [(unreadAt_set _ _ _ _ []).2.1] at this
    exact this
  have hangs : ∀ (d : Doing (Option Bool)) (bs : List UInt8),
      Steps (PipeStep t (unread t) false) 2 (unreadAt d (.at none) bs)
        (unreadAt d (.at (some true)) bs) := by
    intro d bs
    refine .step (.step .start (right rfl)) ?_
    have := PipeStep.ended (t := t) (net := unread t) (late := false)
      (x := unreadAt d (.receiving 1 (De.de t .u8) [] fun _ => some true) bs) (c := 1) (m := 1) 1
      rfl rfl rfl
    rw [(unreadAt_set _ _ _ _ []).2.1] at this
    exact this
  rw [start]
  let sent : Except SerErr Unit → Option Bool := fun
    | .ok _ => some true
    | .error _ => some false
  have a1 : PipeStep t (unread t) false (unreadAt (.at none) (.at none) [])
      (unreadAt (.sending 0 (.writeAll [7] (fun _ => .write) .skip) sent) (.at none) []) := left rfl
  have a2 : PipeStep t (unread t) false
      (unreadAt (.sending 0 (.writeAll [7] (fun _ => .write) .skip) sent) (.at none) [])
      (unreadAt (.sending 0 (.writeAll [] (fun _ => .write) .skip) sent) (.at none) [7]) := by
    have := PipeStep.write (t := t) (net := unread t) (late := false)
      (x := unreadAt (.sending 0 (.writeAll [7] (fun _ => .write) .skip) sent) (.at none) []) (c := 0)
      (bs := [7]) 0 1 rfl (Nat.le_refl _) (Nat.le_refl _) nofun (.inr nofun)
    rw [(unreadAt_set _ _ _ _ []).1, (unreadAt_set _ _ (.at none) _ _).2.2] at this
    exact this
  have a3 : PipeStep t (unread t) false
      (unreadAt (.sending 0 (.writeAll [] (fun _ => .write) .skip) sent) (.at none) [7])
      (unreadAt (.sending 0 .skip sent) (.at none) [7]) := left rfl
  have a4 : PipeStep t (unread t) false (unreadAt (.sending 0 .skip sent) (.at none) [7])
      (unreadAt (.at (some true)) (.at none) [7]) := left rfl
  have a5 := hangs (.at (some true)) [7]
  have b1 := hangs (.at none) []
  have b2 : PipeStep t (unread t) false (unreadAt (.at none) (.at (some true)) [])
      (unreadAt (.sending 0 (.writeAll [7] (fun _ => .write) .skip) sent) (.at (some true)) []) :=
    left rfl
  have b3 : PipeStep t (unread t) false
      (unreadAt (.sending 0 (.writeAll [7] (fun _ => .write) .skip) sent) (.at (some true)) [])
      (unreadAt (.at (some false)) (.at (some true)) []) := by
    have := PipeStep.broken (t := t) (net := unread t) (late := false)
      (x := unreadAt (.sending 0 (.writeAll [7] (fun _ => .write) .skip) sent) (.at (some true)) [])
      (c := 0) (bs := [7]) 0 (.other 32) rfl rfl
    rw [(unreadAt_set _ _ _ _ []).1] at this
    exact this
  have a : Steps (PipeStep t (unread t) false) 6 (unreadAt (.at none) (.at none) [])
      (unreadAt (.at (some true)) (.at (some true)) [7]) := by
    cases a5 with
    | step h a6 =>
    cases h with
    | step h a5 =>
    cases h
    exact .step (.step (.step (.step (.step (.step .start a1) a2) a3) a4) a5) a6
  exact ⟨_, _, _, _, a, unreadAt_rest t true [7], rfl, .step (.step b1 b2) b3,
    unreadAt_rest t false [], rfl⟩

/-! ## C147 -/

/-- A conversation in whole values can be held in bytes, however little the pipes hold. -/
theorem C147_refines {S : Type} (t : Target) (net : Net S) (hr : ∀ c, HasRoom (net.room c) 1)
    (n : Nat) (s s' : Nat → S) (h : Talk t net n s s') :
    ∃ k, n ≤ k ∧ NetRun t net k (between s) (between s') := by
  obtain ⟨k, hk, hb⟩ := Net.talk_bytes hr h
  exact ⟨k, hk, Net.bytes_run hb⟩

/-- A conversation in whole values after which all have ended: every schedule of the bytes, however
little the pipes hold, ends with the same results, and none gets stuck. -/
theorem C147_ends {S : Type} (t : Target) (net : Net S) (hw : net.Wired)
    (hr : ∀ c, HasRoom (net.room c) 1) (n : Nat) (s s' : Nat → S) (h : Talk t net n s s')
    (he : ∀ i, net.act i (s' i) = .stop) :
    EndsIn (NetStep t net) (between s) (between s') ∧
    ∀ late, EndsIn (PipeStep t net late) (between s) (between s') := by
  obtain ⟨k, -, hk⟩ := C147_refines t net hr n s s' h
  have hq := Net.quiet_rest (Net.stopped_quiet (t := t) he)
  exact ⟨C146_settled t net hw s k _ hk hq,
    C146_closed t net hw s k _ hk hq fun c _ => ⟨rfl, fun _ _ => nofun⟩⟩

/-- A conversation in whole values that can go on for ever: no schedule of the bytes gets stuck. -/
theorem C147_forever {S : Type} (t : Target) (net : Net S) (hw : net.Wired)
    (hr : ∀ c, HasRoom (net.room c) 1) (s : Nat → S) (h : ∀ n, ∃ s', Talk t net n s s') (l : Nat)
    (y : NetState S) (hy : NetRun t net l (between s) y) : ¬ AtRest t net y :=
  C146_endless t net hw s (fun n => by
    obtain ⟨s', hs'⟩ := h n
    obtain ⟨k, hk, hb⟩ := C147_refines t net hr n s s' hs'
    exact ⟨k, _, hk, hb⟩) l y hy

/-- The values of the supported types are heard as they are sent … -/
theorem C147_typed (t : Target) (hm : 4096 ≤ t.memLimit) (ty : Ty) (hty : Supported ty) (v : Val)
    (hv : Has t ty v) : Hears t (Ser.ser v) (De.de t ty) v :=
  ⟨wire v, Ser.exec_ser v (De.has_ok t ty hty v hv).1 (De.has_ok t ty hty v hv).2,
    fun rest => De.de_wire t hm ty hty v hv .eof rest⟩

/-- … and so are headers, … -/
theorem C147_headers (t : Target) (size d : Nat) (hmem : 65535 * size ≤ t.memLimit)
    (hptr : 65535 * size ≤ t.isizeMax) (h : Header) (hc : Countable h) (hd : depth h ≤ d) :
    Hears t (Header.serialize h) (Header.deserialize size d) h :=
  C30_roundtrip t size d hmem hptr h hc hd

/-- … dynamic values of a header … -/
theorem C147_bodies (t : Target) (hm : 4096 ≤ t.memLimit) (mode : BuildMode) (size : Nat)
    (h : Header) (b : Body) (hv : Body.validate h b = true) (he : Spec.Exists t b)
    (hc : CleanDecimals b) (hd : DatesFit mode b) (hf : VectorsFit t size b) :
    Hears t (Body.ser mode b) (Body.de t mode size h) b :=
  C35_roundtrip t hm mode size h b hv he hc hd hf

/-- … and values of derived types, up to what the attributes of the type leave out. -/
theorem C147_derived (t : Target) (hm : 4096 ≤ t.memLimit) (mode : BuildMode) (env : Env)
    (ho : FairOrder env) (T : RTy) (hr : Readable T) (hs : Symmetric T) (hd : Defaulted env T)
    (v : Carrier T) (hv : Real t T v) (hdate : DatesRebase mode T v) (hi : InstantsInRange T v) :
    ∃ w, Returned env T v w ∧ Hears t (ser mode T v) (deTy t mode env T) w := by
  obtain ⟨w, bs, h1, h2, h3⟩ := C71_roundtrip t hm mode env ho T hr hs hd v hv hdate hi
  exact ⟨w, h2, bs, h1, fun rest => h3 .eof rest⟩

/-! ### A service -/

theorem service_wired (t : Target) (ty uy : Ty) (f : Val → Val) (room : Nat → Option Nat) :
    (service t ty uy f room).Wired := by
  intro i s
  match i, s with
  | 0, .asks [] _ => exact trivial
  | 0, .asks (_ :: _) _ => rfl
  | 0, .awaits _ _ => rfl
  | 0, .serves => exact trivial
  | 0, .answers _ => exact trivial
  | 0, .closed => exact trivial
  | 0, .failed => exact trivial
  | 1, .asks _ _ => exact trivial
  | 1, .awaits _ _ => exact trivial
  | 1, .serves => rfl
  | 1, .answers _ => rfl
  | 1, .closed => exact trivial
  | 1, .failed => exact trivial
  | _ + 2, _ => exact trivial

theorem setAt_parties (a b c d : Party) :
    setAt (setAt (parties a b) 0 c) 1 d = parties c d ∧
    setAt (setAt (parties a b) 1 d) 0 c = parties c d ∧ setAt (parties a b) 1 d = parties a d := by
  refine ⟨?_, ?_, ?_⟩ <;>
    (funext k; match k with
      | 0 => rfl
      | 1 => rfl
      | _ + 2 => rfl)

/-- The requests are answered one after the other. -/
theorem service_talk (t : Target) (hm : 4096 ≤ t.memLimit) (ty uy : Ty) (hty : Supported ty)
    (huy : Supported uy) (f : Val → Val) (hf : ∀ v, Has t ty v → Has t uy (f v))
    (room : Nat → Option Nat) : ∀ (vs as : List Val) (k : Nat) (s : Nat → Party),
    (∀ v ∈ vs, Has t ty v) → Talk t (service t ty uy f room) k s (parties (.asks vs as) .serves) →
    Talk t (service t ty uy f room) (k + 2 * vs.length) s
      (parties (.asks [] (as ++ vs.map f)) .serves)
  | [], as, k, s, hv, h => by simpa using h
  | v :: vs, as, k, s, hv, h => by
    have h1 := ValueStep.pass (t := t) (net := service t ty uy f room)
      (s := parties (.asks (v :: vs) as) .serves) (i := 0) (j := 1) (by decide) rfl rfl
      (C147_typed t hm ty hty v (hv v (by simp)))
    rw [(setAt_parties _ _ _ _).1] at h1
    have h2 := ValueStep.pass (t := t) (net := service t ty uy f room)
      (s := parties (.awaits vs as) (.answers v)) (i := 1) (j := 0) (by decide) rfl rfl
      (C147_typed t hm uy huy (f v) (hf v (hv v (by simp))))
    rw [(setAt_parties _ _ _ _).2.1] at h2
    have := service_talk t hm ty uy hty huy f hf room vs (as ++ [f v]) (k + 2) s
      (fun w hw => hv w (by simp [hw])) (.step (.step h h1) h2)
    simp only [List.append_assoc, List.singleton_append] at this
    rw [List.map_cons, List.length_cons, show k + 2 * (vs.length + 1) = k + 2 + 2 * vs.length by omega]
    exact this

/-- A client that sends requests and waits for the answer to each, and a server that answers until
there are no more requests: however the two are scheduled, and however little the pipes hold, the
client gets all the answers, both end, and they are never stuck. -/
theorem C147_service (t : Target) (hm : 4096 ≤ t.memLimit) (ty uy : Ty) (hty : Supported ty)
    (huy : Supported uy) (f : Val → Val) (hf : ∀ v, Has t ty v → Has t uy (f v))
    (room : Nat → Option Nat) (hr : ∀ c, HasRoom (room c) 1) (vs : List Val)
    (hv : ∀ v ∈ vs, Has t ty v) (e : DeErr) (he : Prog.run t (De.de t ty) [] = .err e) :
    EndsIn (NetStep t (service t ty uy f room)) (between (parties (.asks vs []) .serves))
      (between (parties (.asks [] (vs.map f)) .closed)) ∧
    ∀ late, EndsIn (PipeStep t (service t ty uy f room) late)
      (between (parties (.asks vs []) .serves)) (between (parties (.asks [] (vs.map f)) .closed)) := by
  have h1 := service_talk t hm ty uy hty huy f hf room vs [] 0 _ hv .start
  have h2 := ValueStep.closed (t := t) (net := service t ty uy f room)
    (s := parties (.asks [] ([] ++ vs.map f)) .serves) (j := 1) (c := 0) rfl rfl he
  rw [(setAt_parties _ _ (.asks [] []) _).2.2, List.nil_append] at h2
  rw [List.nil_append] at h1
  refine C147_ends t _ (service_wired t ty uy f room) hr _ _ _ (.step h1 h2) fun i => ?_
  match i with
  | 0 => rfl
  | 1 => rfl
  | _ + 2 => rfl

/-! ### Both first send -/

theorem exchange_wired (t : Target) (ty uy : Ty) (v w : Val) (room : Nat → Option Nat) :
    (exchange t ty uy v w room).Wired := by
  intro i s
  match i, s with
  | 0, .start => rfl
  | 0, .sent => rfl
  | 0, .done _ => exact trivial
  | 0, .failed => exact trivial
  | 1, .start => rfl
  | 1, .sent => rfl
  | 1, .done _ => exact trivial
  | 1, .failed => exact trivial
  | _ + 2, _ => exact trivial

theorem duo_peers (a b c d : Peer) :
    Net.duo (between (peers a b)) 0 (.at c) 1 (.at d) = between (peers c d) := by
  simp only [Net.duo, between]
  congr 1
  funext k
  match k with
  | 0 => rfl
  | 1 => rfl
  | _ + 2 => rfl

/-- Two programs that both first send: if one of the two values fits its pipe as a whole, then
however they are scheduled both end with the value of the other, and they are never stuck. -/
theorem C147_crossed (t : Target) (hm : 4096 ≤ t.memLimit) (ty uy : Ty) (hty : Supported ty)
    (huy : Supported uy) (v w : Val) (hv : Has t ty v) (hw : Has t uy w) (room : Nat → Option Nat)
    (hr : ∀ c, HasRoom (room c) 1)
    (h : HasRoom (room 0) (Ser.toVec v).1.length ∨ HasRoom (room 1) (Ser.toVec w).1.length) :
    EndsIn (NetStep t (exchange t ty uy v w room)) (between (peers .start .start))
      (between (peers (.done w) (.done v))) ∧
    ∀ late, EndsIn (PipeStep t (exchange t ty uy v w room) late) (between (peers .start .start))
      (between (peers (.done w) (.done v))) := by
  have h1 := C147_typed t hm ty hty v hv
  have h2 := C147_typed t hm uy huy w hw
  have h3 : ∃ n, Net.Bytes t (exchange t ty uy v w room) n (between (peers .start .start))
      (between (peers (.done w) (.done v))) := by
    rcases h with h | h
    · have := Net.crossed (t := t) (net := exchange t ty uy v w room)
        (x := between (peers .start .start)) (i := 0) (j := 1) (a := 0) (b := 1)
        (by decide) (by decide) rfl rfl (si := .start) (sj := .start) rfl rfl rfl rfl h1 h2 h (hr 1)
      rw [duo_peers, duo_peers] at this
      exact this
    · have := Net.crossed (t := t) (net := exchange t ty uy v w room)
        (x := between (peers .start .start)) (i := 1) (j := 0) (a := 1) (b := 0)
        (by decide) (by decide) rfl rfl (si := .start) (sj := .start) rfl rfl rfl rfl h2 h1 h (hr 0)
      rw [Net.duo_comm _ (show 1 ≠ 0 by decide), Net.duo_comm _ (show 1 ≠ 0 by decide), duo_peers,
        duo_peers] at this
      exact this
  obtain ⟨n, hn⟩ := h3
  have hq := Net.quiet_rest (Net.stopped_quiet (t := t) (net := exchange t ty uy v w room)
    (s := peers (.done w) (.done v)) fun i => by
      match i with
      | 0 => rfl
      | 1 => rfl
      | _ + 2 => rfl)
  exact ⟨C146_settled t _ (exchange_wired t ty uy v w room) _ _ _ (Net.bytes_run hn) hq,
    C146_closed t _ (exchange_wired t ty uy v w room) _ _ _ (Net.bytes_run hn) hq
      fun c _ => ⟨rfl, fun _ _ => nofun⟩⟩

/-- If neither fits, then however they are scheduled they get stuck, in the same state, in which
neither has ended. -/
theorem C147_deadlock (t : Target) (ty uy : Ty) (hty : Supported ty) (huy : Supported uy)
    (v w : Val) (hv : Has t ty v) (hw : Has t uy w) (room : Nat → Option Nat)
    (h : ¬ HasRoom (room 0) (Ser.toVec v).1.length)
    (h' : ¬ HasRoom (room 1) (Ser.toVec w).1.length) :
    ∃ z, (∀ i, i < 2 → ¬ (z.doing i).Over ((exchange t ty uy v w room).act i)) ∧
      EndsIn (NetStep t (exchange t ty uy v w room)) (between (peers .start .start)) z ∧
      ∀ late, EndsIn (PipeStep t (exchange t ty uy v w room) late) (between (peers .start .start)) z := by
  have small : ∀ {r : Option Nat} {n : Nat}, ¬ HasRoom r n → ∃ m, r = some m ∧ m < n := by
    intro r n hn
    cases r with
    | none => exact absurd (fun m hm => by cases hm) hn
    | some m =>
      refine ⟨m, rfl, Nat.lt_of_not_le fun hle => hn ?_⟩
      intro m' hm'
      cases hm'
      exact hle
  obtain ⟨m, hm, hl⟩ := small h
  obtain ⟨m', hm', hl'⟩ := small h'
  have e1 := Ser.exec_ser v (De.has_ok t ty hty v hv).1 (De.has_ok t ty hty v hv).2
  have e2 := Ser.exec_ser w (De.has_ok t uy huy w hw).1 (De.has_ok t uy huy w hw).2
  rw [Ser.toVec, e1] at hl
  rw [Ser.toVec, e2] at hl'
  obtain ⟨n, z, h1, h2, h3, h4, h5, ⟨_, h6⟩, ⟨_, h7⟩, h8⟩ := Net.deadlock (t := t) (net := exchange t ty uy v w room)
    (x := between (peers .start .start)) (i := 0) (j := 1) (a := 0) (b := 1) (by decide) (by decide)
    rfl rfl (fun l h0 h1 => by
      match l, h0, h1 with
      | 0, h0, _ => exact absurd rfl h0
      | 1, _, h1 => exact absurd rfl h1
      | _ + 2, _, _ => rfl) (si := .start) (sj := .start) rfl rfl e1 e2 hm hm'
      (Nat.zero_le _) (Nat.zero_le _) (by simpa [between] using hl)
      (by simpa [between] using hl')
  rw [duo_peers] at h1
  refine ⟨z, fun i hi => ?_, C146_settled t _ (exchange_wired t ty uy v w room) _ _ z
    (Net.bytes_run h1) (Net.quiet_rest h2), C146_closed t _ (exchange_wired t ty uy v w room) _ _ z
    (Net.bytes_run h1) (Net.quiet_rest h2) fun c hc => ?_⟩
  · match i, hi with
    | 0, _ => exact h3
    | 1, _ => exact h4
  · match c, hc with
    | 0, hc => exact absurd hc h4
    | 1, hc => exact absurd hc h3
    | c + 2, _ =>
      refine ⟨h5 _ (by omega) (by omega), fun i bs => ?_⟩
      match i with
      | 0 => rw [h6]; simp
      | 1 => rw [h7]; simp
      | i + 2 => rw [h8 _ (by omega) (by omega)]; exact nofun

/-! ### Concrete cases -/

/-- A service that negates, through pipes of one byte. -/
def negation (t : Target) : Net Party :=
  service t .bool .bool (fun | .bool b => .bool !b | v => v) fun _ => some 1

theorem negation_ends (t : Target) (hm : 4096 ≤ t.memLimit) :
    EndsIn (NetStep t (negation t))
      (between (parties (.asks [.bool true, .bool false, .bool true] []) .serves))
      (between (parties (.asks [] [.bool false, .bool true, .bool false]) .closed)) :=
  (C147_service t hm .bool .bool trivial trivial (fun | .bool b => .bool !b | v => v)
    (fun v hv => by
      rw [Has] at hv
      obtain ⟨b, rfl⟩ := hv
      rw [Has]
      exact ⟨!b, rfl⟩) (fun _ => some 1) (fun _ m hm => by cases hm; decide) _
    (fun v hv => by
      rw [Has]
      rcases hv with _ | ⟨_, _ | ⟨_, _ | ⟨_, ⟨⟩⟩⟩⟩ <;> exact ⟨_, rfl⟩) .read rfl).1

/-- So a schedule of it that comes to rest exists, and the programs use only their own pipes. -/
example (t : Target) (hm : 4096 ≤ t.memLimit) : (negation t).Wired ∧ ∃ k z,
    NetRun t (negation t) k
      (between (parties (.asks [.bool true, .bool false, .bool true] []) .serves)) z ∧
      AtRest t (negation t) z := by
  obtain ⟨most, h⟩ := negation_ends t hm
  obtain ⟨-, ⟨m, h2⟩, -⟩ := h 0 _ .start
  obtain ⟨-, -, h3⟩ := h m _ h2
  exact ⟨service_wired _ _ _ _ _, m, _, h2, h3.mpr rfl⟩

/-- Two `u16` that take two bytes each. -/
def twoNumbers (t : Target) (room : Nat → Option Nat) : Net Peer :=
  exchange t .u16 .u16 (.u16 300) (.u16 301) room

/-- Pipes of one byte are too small … -/
example (t : Target) : ∃ z,
    (∀ i, i < 2 → ¬ (z.doing i).Over ((twoNumbers t fun _ => some 1).act i)) ∧
      EndsIn (NetStep t (twoNumbers t fun _ => some 1)) (between (peers .start .start)) z := by
  obtain ⟨z, h1, h2, -⟩ := C147_deadlock t .u16 .u16 trivial trivial (.u16 300) (.u16 301)
    (by rw [Has]; exact ⟨_, rfl⟩) (by rw [Has]; exact ⟨_, rfl⟩) (fun _ => some 1)
    (fun h => absurd (h 1 rfl) (by decide)) (fun h => absurd (h 1 rfl) (by decide))
  exact ⟨z, h1, h2⟩

/-- … but it is enough if one of them holds two. -/
example (t : Target) (hm : 4096 ≤ t.memLimit) :
    EndsIn (NetStep t (twoNumbers t fun c => some (if c = 0 then 2 else 1)))
      (between (peers .start .start)) (between (peers (.done (.u16 301)) (.done (.u16 300)))) :=
  (C147_crossed t hm .u16 .u16 trivial trivial _ _ (by rw [Has]; exact ⟨_, rfl⟩)
    (by rw [Has]; exact ⟨_, rfl⟩) _ (fun c m h => by cases h; split <;> decide)
    (.inl fun m h => by cases h; decide)).1

/-- A program that sends one value after the other, and one that receives them, for ever. -/
def endless (t : Target) : Net Unit where
  act i _ := match i with
    | 0 => .send 0 (Ser.ser (.u16 300)) fun _ => ()
    | 1 => .recv 0 (De.de t .u16) fun _ => ()
    | _ => .stop
  writer c := c
  reader c := 1 - c
  room _ := some 1

/-- They are never stuck. -/
example (t : Target) (hm : 4096 ≤ t.memLimit) (l : Nat) (y : NetState Unit)
    (hy : NetRun t (endless t) l (between fun _ => ()) y) : ¬ AtRest t (endless t) y := by
  refine C147_forever t (endless t) (fun i s => ?_) (fun _ m h => by cases h; decide) _
    (fun n => ⟨fun _ => (), ?_⟩) l y hy
  · match i with
    | 0 => rfl
    | 1 => rfl
    | _ + 2 => exact trivial
  · induction n with
    | zero => exact .start
    | succ n ih =>
      exact .step ih (.pass (i := 0) (j := 1) (by decide) rfl rfl
        (C147_typed t hm .u16 trivial (.u16 300) (by rw [Has]; exact ⟨_, rfl⟩)))

end Dlhn.Props
