import Verif.Spec.RelayMixed
import Verif.Props.Message
import Verif.Proof.Builds
/-!
# C144: intermediaries on different machines

`HopsAcross` (Spec/RelayMixed.lean) is a row of intermediaries, each with its own width of
`usize`, memory, stack and overflow checks.
-/
namespace Dlhn.Props

open Spec hiding variantFields
open De Derive

/-- A value that a checked build can write is written alike by both builds. -/
theorem ser_modes (t : Target) (hm : 4096 ≤ t.memLimit) (size : Nat) (T : RTy)
    (h : Header) (hT : Announces T h) (hp : Plain T) (v : Carrier T) (hr : Real t T v)
    (hd : DatesRebase .debug T v) (hf : MemoryFits t size h T v) :
    (ser .debug T v).exec = (ser .release T v).exec := by
  obtain ⟨-, bs, hb, -⟩ := C38_agree t hm .debug size T h hT hp v hr hd hf
  rcases (Laxer.derivedSer (Q := (· = .overflow)) (.inr ⟨rfl, rfl⟩) T v).exec with
    ⟨q, -, hq, -⟩ | h
  · rw [hb] at hq; cases hq
  · exact h

/-- The same for any two builds for which the dates fit. -/
theorem ser_any_modes (t : Target) (hm : 4096 ≤ t.memLimit) (size : Nat) (T : RTy)
    (h : Header) (hT : Announces T h) (hp : Plain T) (v : Carrier T) (hr : Real t T v)
    (hf : MemoryFits t size h T v) : (mode mode' : BuildMode) → DatesRebase mode T v →
    DatesRebase mode' T v → (ser mode T v).exec = (ser mode' T v).exec
  | .debug, .debug, _, _ | .release, .release, _, _ => rfl
  | .debug, .release, hd, _ => ser_modes t hm size T h hT hp v hr hd hf
  | .release, .debug, _, hd => (ser_modes t hm size T h hT hp v hr hd hf).symm

/-- Through machines of any kind: what the last one writes is, byte by byte, what the sender
wrote, or if connections break, a beginning of it. The sender's machine may be of another kind,
too. -/
theorem C144_mixed (T : RTy) (h : Header) (hT : Announces T h) (hp : Plain T) (hn : NoHashMap T)
    (sender : BuildMode) (sent : List (Carrier T)) (hs : ∀ v ∈ sent, DatesRebase sender T v)
    (he : ∃ v ∈ sent, (ser sender T v).exec.1 ≠ []) (p : WProg IoErr)
    (hq : serializeHeader T = .ok p) (ms : List Machine) (hms : ∀ m ∈ ms, m.Holds h T sent)
    (data : List UInt8)
    (hdata : data = p.exec.1 ++ (sent.map fun v => (ser sender T v).exec.1).flatten) :
    (∀ out, HopsAcross Whole data ms out → out = data) ∧
    ∀ out, HopsAcross Broken data ms out → out <+: data := by
  have alike : ∀ m ∈ ms, ∀ v ∈ sent, (ser sender T v).exec = (ser m.mode T v).exec :=
    fun m hm v hv => ser_any_modes m.target (hms m hm).memory m.size T h hT hp v
      ((hms m hm).values v hv).1 ((hms m hm).values v hv).2.2 _ _ (hs v hv)
      ((hms m hm).values v hv).2.1
  have each : ∀ m ∈ ms, (∀ out, Hops Whole m.target m.mode m.size m.hsize m.stack data out →
      out = data) ∧
      ∀ out, Hops Broken m.target m.mode m.size m.hsize m.stack data out → out <+: data := by
    intro m hm
    have hmap : (sent.map fun v => (ser sender T v).exec.1) =
        sent.map fun v => (ser m.mode T v).exec.1 :=
      List.map_congr_left fun v hv => by rw [alike m hm v hv]
    obtain ⟨v, hv, hne⟩ := he
    exact C144_unchanged m.target (hms m hm).memory m.mode m.size m.hsize m.stack
      (hms m hm).headers.1 (hms m hm).headers.2 T h hT (hms m hm).stack hp hn sent
      (hms m hm).values ⟨v, hv, by rw [← alike m hm v hv]; exact hne⟩ p hq data
      (by rw [hdata, hmap])
  clear hdata alike hms he hs
  refine ⟨fun out hops => ?_, fun out hops => ?_⟩
  · induction hops with
    | none => rfl
    | one m before lawful link hop ih =>
      have := ih fun m hm => each m (by simp [hm])
      subst this
      exact (each m (by simp)).1 _ (.one .none lawful link hop)
  · induction hops with
    | none => exact List.prefix_refl _
    | one m before lawful link hop ih =>
      have := ih fun m hm => each m (by simp [hm])
      exact (each m (by simp)).2 _ (.one .none lawful (List.IsPrefix.trans link this) hop)

/-! ## The hypotheses are met -/

/-- Two badges, from a build without overflow checks. -/
def badges : List (Carrier badgeTy) := [(7, "ann", 1, ()), (300, "bo", 2, ())]

/-- A server of 64 bits that checks for overflow and a device of 32 bits that does not. -/
def server : Machine := ⟨⟨.w64, 2 ^ 40⟩, .debug, 32, 24, 100⟩
def device : Machine := ⟨⟨.w32, 2 ^ 21⟩, .release, 16, 16, 9⟩

theorem badges_cases {v : Carrier badgeTy} (hv : v ∈ badges) :
    v = (7, "ann", 1, ()) ∨ v = (300, "bo", 2, ()) := by
  rcases List.mem_cons.mp hv with h | h
  · exact .inl h
  · exact .inr (List.mem_singleton.mp h)

theorem badges_held (m : Machine) (hm : m = server ∨ m = device) :
    m.Holds (.tuple [.uint32, .string]) badgeTy badges := by
  have h1 : ¬ Skipped [] := by decide
  have h2 : Skipped [skipAttr] := by decide
  have hs : ∀ s, s = "ann" ∨ s = "bo" → (utf8 s).length < 2 ^ m.target.ptr.bits := by
    rintro s (rfl | rfl) <;> rcases hm with rfl | rfl <;> decide +kernel
  have hf : ∀ n s x, MemoryFits m.target m.size (.tuple [.uint32, .string]) badgeTy (n, s, x, ()) := by
    intro n s x
    refine ⟨fun hs hh => ?_, fun U vs hU => ?_⟩
    · simp [headerParts, headersParts] at hh
      subst hh
      rcases hm with rfl | rfl <;> decide +kernel
    · simp [badgeTy, valueParts, valuePartsFields, h1, h2] at hU
  refine ⟨?_, ?_, ?_, ?_⟩
  · rcases hm with rfl | rfl <;> decide
  · rcases hm with rfl | rfl <;> decide
  · rcases hm with rfl | rfl <;> decide
  · intro v hv
    rcases badges_cases hv with rfl | rfl
    · obtain ⟨-, -, -, -, h5, h6, -⟩ := (badge_meets m.target m.mode 7 "ann" (hs _ (.inl rfl)) 1).1
      exact ⟨h5, h6, hf ..⟩
    · obtain ⟨-, -, -, -, h5, h6, -⟩ := (badge_meets m.target m.mode 300 "bo" (hs _ (.inr rfl)) 2).1
      exact ⟨h5, h6, hf ..⟩

/-- From a sender through the server and the device and the server again: such rows exist, and
every one of them passes the bytes on. -/
example : ∃ p, serializeHeader badgeTy = .ok p ∧
    let data := p.exec.1 ++ (badges.map fun v => (ser .release badgeTy v).exec.1).flatten
    HopsAcross Whole data [server, device, server] data := by
  obtain ⟨hA, hp, hn, -, -, -, -⟩ :=
    (badge_meets server.target .release 7 "ann" (by decide +kernel) 1).1
  obtain ⟨p, hq, -⟩ := hA.1
  have hdates : ∀ mode, ∀ v ∈ badges, DatesRebase mode badgeTy v := by
    intro mode v hv
    rcases badges_cases hv with rfl | rfl
    · exact (badge_meets server.target mode 7 "ann" (by decide +kernel) 1).1.2.2.2.2.2.1
    · exact (badge_meets server.target mode 300 "bo" (by decide +kernel) 2).1.2.2.2.2.2.1
  have he : ∀ mode, ∃ v ∈ badges, (ser mode badgeTy v).exec.1 ≠ [] := fun mode =>
    ⟨(7, "ann", 1, ()), List.mem_cons_self, by cases mode <;> decide +kernel⟩
  refine ⟨p, hq, ?_⟩
  intro data
  have alike : ∀ mode, data = p.exec.1 ++ (badges.map fun v => (ser mode badgeTy v).exec.1).flatten := by
    intro mode
    suffices (badges.map fun v => (ser .release badgeTy v).exec.1) =
        badges.map fun v => (ser mode badgeTy v).exec.1 from
      congrArg (fun l => p.exec.1 ++ l.flatten) this
    refine List.map_congr_left fun v hv => ?_
    have hh := (badges_held server (.inl rfl)).values v hv
    rw [ser_any_modes server.target (by decide) server.size badgeTy _ hA hp v hh.1 hh.2.2 .release
      mode (hdates _ v hv) (hdates _ v hv)]
  have next : ∀ m, m = server ∨ m = device → ∃ cs out,
      Relays fileStep m.target m.mode m.size m.hsize m.stack data cs out [] ∧ handed cs = data := by
    intro m hm
    have hh := badges_held m hm
    refine C144_ends m.target hh.memory m.mode m.size m.hsize m.stack hh.headers.1 hh.headers.2 _ _
      hA hh.stack hp badges hh.values (he _) p hq (mid := data) ?_ data (List.prefix_refl _)
    rw [← alike m.mode]
    exact .none
  have step : ∀ m, m = server ∨ m = device → ∀ ms, (∀ m ∈ ms, m = server ∨ m = device) →
      HopsAcross Whole data ms data → HopsAcross Whole data (ms ++ [m]) data := by
    intro m hm ms hms before
    obtain ⟨cs, out, hr, hc⟩ := next m hm
    have all : HopsAcross Whole data (ms ++ [m]) out := .one m before fileStep_lawful hc hr
    have := (C144_mixed badgeTy _ hA hp hn .release badges (hdates _) (he _) p hq (ms ++ [m])
      (fun k hk => by
        rcases List.mem_append.mp hk with hk | hk
        · exact badges_held k (hms k hk)
        · rw [List.mem_singleton.mp hk]; exact badges_held m hm) data rfl).1 out all
    exact this ▸ all
  have one := step server (.inl rfl) [] (by simp) .none
  have two := step device (.inr rfl) [server] (by simp) one
  exact step server (.inl rfl) [server, device] (by simp) two

end Dlhn.Props
