import Verif.Proof.RecSer
import Verif.Props.Rec
/-!
# C129: the stack that values of recursive types need to be serialized

`Rec.serNamed defs d n v` is serializing the value `v` of the named type `n` on a stack with room
for `d` nested calls of `serialize` of named types, as `Rec.deNamed` is reading one (C84, C85).
-/
namespace Dlhn.Props

open Rec Spec

/-- A value nested at most as deep as the stack is written as if the stack had no end, and so
without failure. -/
theorem C129_enough (t : Target) (hm : 4096 ≤ t.memLimit) (defs : Defs)
    (hs : ∀ n, RecSupported (defs n)) (n : String) (d : Nat) (v : Val) (hv : Deep t defs d n v) :
    (serNamed defs d n v).exec = Ser.toVec v ∧ (Ser.toVec v).2 = .ok () := by
  obtain ⟨enc, h1, -⟩ := C84_roundtrip t hm defs hs n d v hv
  exact ⟨by rw [(writes_deep t hs d d).enough n v hv]; rfl, by rw [h1]⟩

/-- A value nested deeper exhausts the stack, after a prefix of its encoding. -/
theorem C129_too_deep (t : Target) (hm : 4096 ≤ t.memLimit) (defs : Defs)
    (hs : ∀ n, RecSupported (defs n)) (n : String) (d : Nat) (v : Val)
    (hv : HasNamed t defs n v) (hd : ¬ Deep t defs d n v) :
    (serNamed defs d n v).exec.2 = .panic .stackOverflow ∧
      (serNamed defs d n v).exec.1 <+: (Ser.toVec v).1 := by
  obtain ⟨e, he⟩ := hv
  rcases wbelow_named defs d n v with h | h
  · refine absurd ((writes_deep t hs d e).only n v he ?_) hd
    rw [h]
    exact (C129_enough t hm defs hs n e v he).2
  · exact h

theorem deep_succ (t : Target) (hm : 4096 ≤ t.memLimit) (defs : Defs)
    (hs : ∀ n, RecSupported (defs n)) : (d : Nat) → (n : String) → (v : Val) →
    Deep t defs d n v → Deep t defs (d + 1) n v
  | 0, _, _, h => h.elim
  | d + 1, n, v, h => by
    have hc : WritesJust (Deep t defs (d + 1)) (Deep t defs d) (fun _ v => Ser.ser v) :=
      ⟨fun _ _ _ => rfl, fun m w hw _ => deep_succ t hm defs hs d m w hw⟩
    have he : serBody (fun _ v => Ser.ser v) (defs n) v = Ser.ser v :=
      eq_body (N := Deep t defs d) (K := Deep t defs d) ⟨fun _ _ _ => rfl, fun _ _ hw _ => hw⟩
        (defs n) v (hs n) h
    refine only_body hc (defs n) v (hs n) h ?_
    rw [he]
    exact (C129_enough t hm defs hs n (d + 1) v h).2

theorem deep_le (t : Target) (hm : 4096 ≤ t.memLimit) (defs : Defs)
    (hs : ∀ n, RecSupported (defs n)) {d e : Nat} (hde : d ≤ e) {n : String} {v : Val}
    (h : Deep t defs d n v) : Deep t defs e n v := by
  induction hde with
  | refl => exact h
  | step _ ih => exact deep_succ t hm defs hs _ n v ih

/-- So every value has a depth: it is written on exactly the stacks at least that deep, and on a
64-bit target its encoding is read on exactly those too. -/
theorem C129_threshold (t : Target) (hm : 4096 ≤ t.memLimit) (defs : Defs)
    (hs : ∀ n, RecSupported (defs n)) (n : String) (v : Val) (hv : HasNamed t defs n v) :
    ∃ d₀ enc, 0 < d₀ ∧ Ser.toVec v = (enc, .ok ()) ∧ ∀ d,
      (d₀ ≤ d → (serNamed defs d n v).exec = (enc, .ok ()) ∧
        ∀ rest, Prog.run t (deNamed t defs d n) (enc ++ rest) = .ok (v, rest)) ∧
      (d < d₀ → (serNamed defs d n v).exec.2 = .panic .stackOverflow ∧
        (t.ptr = .w64 ∨ enc.length < 2 ^ 32 →
          ∀ rest, Prog.run t (deNamed t defs d n) (enc ++ rest) = .panic .stackOverflow)) := by
  have hv' := hv
  obtain ⟨e, he⟩ := hv
  obtain ⟨d₀, h1, h2⟩ : ∃ d₀, Deep t defs d₀ n v ∧ ∀ d, d < d₀ → ¬ Deep t defs d n v := by
    induction e using Nat.strongRecOn with
    | ind e ih =>
      by_cases h : ∃ d, d < e ∧ Deep t defs d n v
      · obtain ⟨d, hd, h⟩ := h
        exact ih d hd h
      · exact ⟨e, he, fun d hd hx => h ⟨d, hd, hx⟩⟩
  obtain ⟨enc, henc, -⟩ := C84_roundtrip t hm defs hs n d₀ v h1
  refine ⟨d₀, enc, ?_, henc, fun d => ⟨fun hd => ?_, fun hd => ⟨?_, fun hl => ?_⟩⟩⟩
  · cases d₀ with
    | zero => exact h1.elim
    | succ k => omega
  · have hdeep := deep_le t hm defs hs hd h1
    obtain ⟨enc', h3, h4⟩ := C84_roundtrip t hm defs hs n d v hdeep
    rw [henc] at h3
    cases h3
    exact ⟨(C129_enough t hm defs hs n d v hdeep).1.trans henc, h4⟩
  · exact (C129_too_deep t hm defs hs n d v hv' (h2 d hd)).1
  · obtain ⟨enc', h3, h4⟩ := C85_too_deep t hm defs hs n d v (by rw [henc]; exact hl) hv' (h2 d hd)
    rw [henc] at h3
    cases h3
    exact h4

/-- What was read on a stack can be written on it again. -/
theorem C129_write_back (t : Target) (hm : 4096 ≤ t.memLimit) (defs : Defs)
    (hs : ∀ n, RecSupported (defs n)) (n : String) (d : Nat) (bs rest : List UInt8) (v : Val)
    (hl : t.ptr = .w64 ∨ bs.length < rest.length + 2 ^ 32)
    (h : Prog.run t (deNamed t defs d n) bs = .ok (v, rest)) :
    (serNamed defs d n v).exec = Ser.toVec v ∧ (Ser.toVec v).2 = .ok () :=
  C129_enough t hm defs hs n d v (C84_decoded t hm defs hs n d bs rest v hl h).1

/-- No stack is enough for all values of a recursive type: a list of as many nodes as there is
room for calls is written, and one of one node more is not, though each of its nodes takes one
byte. -/
theorem C129_lists (d : Nat) :
    (serNamed sampleDefs (d + 1) "List" (chain d)).exec
      = (List.replicate d 1 ++ [0], .ok ()) ∧
    (serNamed sampleDefs d "List" (chain d)).exec.2 = .panic .stackOverflow := by
  have hw : ∀ d, Ser.toVec (chain d) = (List.replicate d 1 ++ [0], .ok ()) := by
    intro d
    induction d with
    | zero => rfl
    | succ d ih =>
      rw [Ser.toVec] at ih ⊢
      rw [chain, Ser.ser, Ser.serFields, Ser.ser, Ser.serFields]
      simp only [WProg.exec_andThen, ih]
      simp [Ser.emit, WProg.exec, WProg.skip, List.replicate_succ]
  let t : Target := ⟨.w64, 4096⟩
  refine ⟨?_, ?_⟩
  · rw [(C129_enough t (by decide) sampleDefs sampleDefs_supported "List" (d + 1) (chain d)
      ((chain_deep t _ _).mpr (by omega))).1, hw]
  · exact (C129_too_deep t (by decide) sampleDefs sampleDefs_supported "List" d (chain d)
      ⟨d + 1, (chain_deep t _ _).mpr (by omega)⟩ (fun h => by
        have := (chain_deep t _ _).mp h
        omega)).1

/-- `sampleJson` needs three calls. -/
example (t : Target) (hm : 4096 ≤ t.memLimit) :
    (serNamed sampleDefs 3 "Json" sampleJson).exec = Ser.toVec sampleJson :=
  (C129_enough t hm _ sampleDefs_supported _ _ _ (sampleJson_deep t)).1

example : (serNamed sampleDefs 2 "Json" sampleJson).exec.2 = .panic .stackOverflow := rfl

end Dlhn.Props
