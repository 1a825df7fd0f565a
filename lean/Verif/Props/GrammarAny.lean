import Verif.Proof.GrammarAny
import Verif.Props.Grammar
/-!
# C125: exactly which bytes are read on every target

`Spec.DenotesIn` (Spec/GrammarAny.lean) is the grammar of Spec/Grammar.lean with lengths cut
down to the size of an address.
-/
namespace Dlhn.Props

open Spec De

/-- Deserializing from an input yields a value and leaves a rest exactly if what it took,
followed by that rest, stands for the value. -/
theorem C125_accepts (t : Target) (hm : 4096 ≤ t.memLimit) (ty : Ty) (bs rest : List UInt8)
    (v : Val) :
    Prog.run t (de t ty) bs = .ok (v, rest) ↔
      ∃ used, bs = used ++ rest ∧ DenotesIn t.ptr.bits ty v used rest :=
  parsesIn_de hm ty bs v rest

/-- Everything else is an error, for every type that does not ask for borrowed, ignored or
self-describing data. -/
theorem C125_rejects (t : Target) (hm : 4096 ≤ t.memLimit) (ty : Ty) (hd : Decodable ty)
    (bs : List UInt8) :
    (∃ e, Prog.run t (de t ty) bs = .err e) ↔
      ∀ used rest v, bs = used ++ rest → ¬ DenotesIn t.ptr.bits ty v used rest := by
  constructor
  · rintro ⟨e, he⟩ used rest v rfl hv
    rw [(C125_accepts t hm ty _ rest v).mpr ⟨used, rfl, hv⟩] at he
    cases he
  · intro h
    have hr := C13_no_panic t hm ty hd bs
    cases hx : Prog.run t (de t ty) bs with
    | ok vr =>
      obtain ⟨used, hu, hv⟩ := (C125_accepts t hm ty bs vr.2 vr.1).mp hx
      exact (h used vr.2 vr.1 hu hv).elim
    | err e => exact ⟨e, rfl⟩
    | panic p => rw [hx] at hr; exact hr.elim

/-- With 64 bits it is the grammar of Spec/Grammar.lean, whatever follows. -/
theorem C125_wide (ty : Ty) (v : Val) (u rest : List UInt8) :
    DenotesIn 64 ty v u rest ↔ Denotes ty v u :=
  denotesIn_iff (ok := fun _ => True)
    (fun _ _ h _ => varintDecode_lt (by simp) ((number_iff 64 (by simp) _ _).mp h)) ty v u rest
    fun _ _ => trivial

/-- Data without bytes from 240 on are read alike on all targets. -/
theorem C125_alike (t t' : Target) (hm : 4096 ≤ t.memLimit) (hm' : 4096 ≤ t'.memLimit) (ty : Ty)
    (bs rest : List UInt8) (v : Val) (hb : ∀ b ∈ bs, b.toNat < 240) :
    Prog.run t (de t ty) bs = .ok (v, rest) ↔ Prog.run t' (de t' ty) bs = .ok (v, rest) := by
  have key : ∀ (s : Target) (used : List UInt8), (∀ b ∈ used, b.toNat < 240) →
      (DenotesIn s.ptr.bits ty v used rest ↔ Denotes ty v used) := fun s used hu =>
    denotesIn_iff (ok := fun b => b.toNat < 240)
      (fun m l h1 h2 => Nat.lt_of_lt_of_le (number_small h1 h2)
        (by cases s.ptr <;> decide)) ty v used rest hu
  rw [C125_accepts t hm, C125_accepts t' hm']
  constructor <;>
  · rintro ⟨used, rfl, h⟩
    have hu : ∀ b ∈ used, b.toNat < 240 := fun b hx => hb b (by simp [hx])
    exact ⟨used, rfl, by rw [key _ used hu] at h ⊢; exact h⟩

/-- 2^32 + 2 as a 64-bit number. -/
private theorem number_over : Number 64 4294967298 [242, 0, 0, 0, 32] :=
  .inl ⟨5, by decide, by decide, by decide, by decide⟩

/-- Otherwise they are not: where addresses have 32 bits a sequence of 2^32 + 2 elements has
two. -/
theorem C125_count (t : Target) (ht : t.ptr = .w32) (hm : 4096 ≤ t.memLimit) (rest : List UInt8) :
    Prog.run t (de t (.seq .u8)) ([242, 0, 0, 0, 32, 7, 9] ++ rest)
        = .ok (.seq (some 2) [.u8 7, .u8 9], rest) ∧
      ∀ v, ¬ Denotes (.seq .u8) v [242, 0, 0, 0, 32, 7, 9] := by
  constructor
  · refine (C125_accepts t hm _ _ _ _).mpr ⟨_, rfl, ?_⟩
    rw [DenotesIn]
    refine ⟨[.u8 7, .u8 9], [242, 0, 0, 0, 32], [7, 9], rfl, rfl, ⟨_, number_over, by
      rw [ht]; decide⟩, [7], [9], rfl, ?_, [9], [], rfl, ?_, rfl⟩ <;>
    · rw [DenotesIn, Denotes]
      · exact ⟨_, rfl, rfl⟩
      all_goals simp
  · intro v h
    have h1 := (C120_accepts ⟨.w64, 4096⟩ rfl (Nat.le_refl _) _ _ [] v).mpr ⟨_, rfl, h⟩
    rw [Denotes] at h
    obtain ⟨vs, l, u, rfl, hlu, hn, hj⟩ := h
    have hd := (number_decode 64 (by simp) vs.length _ u).mpr ⟨l, hlu, hn⟩
    have hd' := (number_decode 64 (by simp) 4294967298 ([242, 0, 0, 0, 32] ++ [7, 9]) [7, 9]).mpr
      ⟨_, rfl, number_over⟩
    rw [show ([242, 0, 0, 0, 32, 7, 9] : List UInt8) = [242, 0, 0, 0, 32] ++ [7, 9] from rfl,
      hd'] at hd
    simp only [Option.some.injEq, Prod.mk.injEq] at hd
    obtain ⟨h2, rfl⟩ := hd
    have hle : ∀ (ws : List Val) (x : List UInt8), Joined (Denotes .u8) ws x → ws.length = x.length := by
      intro ws
      induction ws with
      | nil => rintro x rfl; rfl
      | cons w ws ih =>
        rintro x ⟨a, b, rfl, ha, hb⟩
        rw [Denotes] at ha
        obtain ⟨y, rfl, rfl⟩ := ha
        simp [ih b hb]
    have := hle vs _ hj
    rw [← h2] at this
    exact absurd this (by decide)

/-- And a string of 2^32 + 2 bytes has two, if nothing follows. -/
theorem C125_text (t : Target) (ht : t.ptr = .w32) (hm : 4096 ≤ t.memLimit) :
    Prog.run t (de t .string) [242, 0, 0, 0, 32, 97, 98] = .ok (.str "ab", []) ∧
      ∀ b more v rest,
        Prog.run t (de t .string) ([242, 0, 0, 0, 32, 97, 98] ++ b :: more) ≠ .ok (v, rest) := by
  have hbits : t.ptr.bits = 32 := by rw [ht]; rfl
  constructor
  · refine (C125_accepts t hm _ _ _ _).mpr ⟨_, (List.append_nil _).symm, ?_⟩
    rw [DenotesIn, hbits]
    exact ⟨"ab", rfl, 4294967298, [242, 0, 0, 0, 32], number_over, by decide, by decide, fun _ => rfl⟩
  · intro b more v rest h
    obtain ⟨used, hu, hd⟩ := (C125_accepts t hm _ _ _ _).mp h
    rw [DenotesIn, hbits] at hd
    obtain ⟨s, rfl, m, l, hn, rfl, hl, hr⟩ := hd
    have hd := (number_decode 64 (by simp) m
      ([242, 0, 0, 0, 32, 97, 98] ++ b :: more) (utf8 s ++ rest)).mpr
      ⟨l, by rw [hu, List.append_assoc], hn⟩
    have hd' := (number_decode 64 (by simp) 4294967298
      ([242, 0, 0, 0, 32] ++ (97 :: 98 :: b :: more)) (97 :: 98 :: b :: more)).mpr
      ⟨_, rfl, number_over⟩
    rw [show ([242, 0, 0, 0, 32, 97, 98] ++ b :: more : List UInt8)
      = [242, 0, 0, 0, 32] ++ (97 :: 98 :: b :: more) from rfl, hd'] at hd
    simp only [Option.some.injEq, Prod.mk.injEq] at hd
    obtain ⟨rfl, hx⟩ := hd
    have := hr (by decide)
    subst this
    have hlen := congrArg List.length hx
    simp only [List.length_cons, List.length_append, List.length_nil] at hlen
    rw [show 4294967298 % 2 ^ 32 = 2 from rfl] at hl
    omega

/-- Data to which `C125_alike` applies. -/
example : Prog.run ⟨.w32, 4096⟩ (de ⟨.w32, 4096⟩ (.tuple [.string, .seq .bool]))
    [2, 97, 98, 3, 1, 0, 1, 9]
      = .ok (.tuple [.str "ab", .seq (some 3) [.bool true, .bool false, .bool true]], [9]) := by
  refine (C125_alike ⟨.w32, 4096⟩ ⟨.w64, 4096⟩ (by decide) (by decide) _ _ _ _
    (by decide)).mpr ((C120_accepts _ rfl (by decide) _ _ _ _).mpr
      ⟨[2, 97, 98, 3, 1, 0, 1], rfl, ?_⟩)
  simp only [Denotes, DenotesAll]
  refine ⟨_, rfl, _, _, [2, 97, 98], [3, 1, 0, 1], rfl, rfl,
    ⟨_, rfl, [2], .inl ⟨1, by decide, by decide, by decide, by decide⟩, by decide⟩, _, _,
    [3, 1, 0, 1], [], rfl, rfl, ⟨[.bool true, .bool false, .bool true], [3], [1, 0, 1], rfl, rfl,
      .inl ⟨1, by decide, by decide, by decide, by decide⟩, ?_⟩, rfl, rfl⟩
  exact ⟨[1], [0, 1], rfl, by simp, [0], [1], rfl, by simp, [1], [], rfl,
    by simp, rfl⟩

end Dlhn.Props
