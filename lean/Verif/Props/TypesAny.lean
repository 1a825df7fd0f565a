import Verif.Proof.TypesAny
import Verif.Props.DeriveGrammar
import Verif.Props.BodyGrammar
import Verif.Props.GrammarAny
/-!
# C126, C127: exactly which bytes are read as derived types and as bodies on every target

`Spec.TypeDenotesIn` and `Spec.BodyDenotesIn` (Spec/TypesAny.lean) are the grammars.
-/
namespace Dlhn.Props

open Spec hiding variantFields
open Derive

private theorem number_wide (m : Nat) (l : List UInt8) (h : Number 64 m l) : m < 2 ^ 64 :=
  De.varintDecode_lt (by simp) ((number_iff 64 (by simp) _ _).mp h)

private theorem number_fits (t : Target) (m : Nat) (l : List UInt8) (h : Number 64 m l)
    (hl : ∀ b ∈ l, b.toNat < 240) : m < 2 ^ t.ptr.bits :=
  Nat.lt_of_lt_of_le (number_small h hl) (by cases t.ptr <;> decide)

/-- 2^32 + 2 as a 64-bit number. -/
private theorem number_over : Number 64 4294967298 [242, 0, 0, 0, 32] :=
  .inl ⟨5, by decide, by decide, by decide, by decide⟩

/-! ## C126 derived types -/

/-- `T::deserialize` yields a value and leaves a rest exactly if what it took, followed by that
rest, stands for the value. -/
theorem C126_accepts (t : Target) (hm : 4096 ≤ t.memLimit) (mode : BuildMode) (env : Env) (T : RTy)
    (bs rest : List UInt8) (v : Carrier T) :
    Prog.run t (deTy t mode env T) bs = .ok (v, rest) ↔
      ∃ used, bs = used ++ rest ∧ TypeDenotesIn t.ptr.bits mode env T v used rest :=
  parsesIn_ty hm mode env T bs v rest

/-- Whatever the type: what is not in the grammar is an error, or a panic for borrowed data
(`todo!()`), for a date whose year overflows with overflow checks or for an `OffsetDateTime` out
of range. -/
theorem C126_else (t : Target) (hm : 4096 ≤ t.memLimit) (mode : BuildMode) (env : Env) (T : RTy)
    (bs : List UInt8)
    (hn : ∀ used rest v, bs = used ++ rest → ¬ TypeDenotesIn t.ptr.bits mode env T v used rest) :
    (∃ e, Prog.run t (deTy t mode env T) bs = .err e) ∨
    (∃ q, Prog.run t (deTy t mode env T) bs = .panic q ∧
      ((q = .todo ∧ (.str ∈ readParts T ∨ .bytes ∈ readParts T)) ∨
       (q = .overflow ∧ mode = .debug ∧ (.date ∈ readParts T ∨ .timeDate ∈ readParts T)) ∨
       (q = .timeRange ∧ .offsetDateTime ∈ readParts T))) := by
  cases hy : Prog.run t (deTy t mode env T) bs with
  | ok r =>
    obtain ⟨used, hu, hv⟩ := (C126_accepts t hm mode env T bs r.2 r.1).mp hy
    exact (hn used r.2 r.1 hu hv).elim
  | err e => exact .inl ⟨e, rfl⟩
  | panic p => exact .inr ⟨p, rfl, C75_panics t hm mode env T .eof bs p hy⟩

/-- Without borrowed data, `OffsetDateTime`s and dates (or without overflow checks) everything
else is an error. -/
theorem C126_rejects (t : Target) (hm : 4096 ≤ t.memLimit) (mode : BuildMode) (env : Env) (T : RTy)
    (hb : .str ∉ readParts T ∧ .bytes ∉ readParts T)
    (hd : mode = .debug → .date ∉ readParts T ∧ .timeDate ∉ readParts T)
    (hi : .offsetDateTime ∉ readParts T) (bs : List UInt8) :
    (∃ e, Prog.run t (deTy t mode env T) bs = .err e) ↔
      ∀ used rest v, bs = used ++ rest → ¬ TypeDenotesIn t.ptr.bits mode env T v used rest := by
  constructor
  · rintro ⟨e, he⟩ used rest v rfl hv
    rw [(C126_accepts t hm mode env T _ rest v).mpr ⟨used, rfl, hv⟩] at he
    cases he
  · intro hn
    rcases C126_else t hm mode env T bs hn with h | ⟨q, -, ⟨-, h | h⟩ | ⟨-, h1, h | h⟩ | ⟨-, h⟩⟩
    · exact h
    · exact (hb.1 h).elim
    · exact (hb.2 h).elim
    · exact ((hd h1).1 h).elim
    · exact ((hd h1).2 h).elim
    · exact (hi h).elim

/-- With 64 bits it is the grammar of Spec/DeriveGrammar.lean, whatever follows. -/
theorem C126_wide (mode : BuildMode) (env : Env) (T : RTy) (v : Carrier T) (u rest : List UInt8) :
    TypeDenotesIn 64 mode env T v u rest ↔ TypeDenotes mode env T v u :=
  typeDenotesIn_iff (ok := fun _ => True) (fun m l h _ => number_wide m l h) mode env T v u rest
    fun _ _ => trivial

/-- Data without bytes from 240 on are read alike on all targets. -/
theorem C126_alike (t t' : Target) (hm : 4096 ≤ t.memLimit) (hm' : 4096 ≤ t'.memLimit)
    (mode : BuildMode) (env : Env) (T : RTy) (bs rest : List UInt8) (v : Carrier T)
    (hb : ∀ b ∈ bs, b.toNat < 240) :
    Prog.run t (deTy t mode env T) bs = .ok (v, rest) ↔
      Prog.run t' (deTy t' mode env T) bs = .ok (v, rest) := by
  have key : ∀ (s : Target) (used : List UInt8), (∀ b ∈ used, b.toNat < 240) →
      (TypeDenotesIn s.ptr.bits mode env T v used rest ↔ TypeDenotes mode env T v used) :=
    fun s used hu => typeDenotesIn_iff (ok := fun b => b.toNat < 240) (number_fits s) mode env T v
      used rest hu
  rw [C126_accepts t hm, C126_accepts t' hm']
  constructor <;>
  · rintro ⟨used, rfl, h⟩
    have hu : ∀ b ∈ used, b.toNat < 240 := fun b hx => hb b (by simp [hx])
    exact ⟨used, rfl, by rw [key _ used hu] at h ⊢; exact h⟩

/-- Otherwise they are not: where addresses have 32 bits a `Vec` announced with 2^32 + 2 elements
has two. -/
theorem C126_count (t : Target) (ht : t.ptr = .w32) (hm : 4096 ≤ t.memLimit) (mode : BuildMode)
    (env : Env) (rest : List UInt8) :
    Prog.run t (deTy t mode env (.vec .u8)) ([242, 0, 0, 0, 32, 7, 9] ++ rest)
      = .ok (([7, 9] : List UInt8), rest) := by
  refine (C126_accepts t hm mode env _ _ _ _).mpr ⟨_, rfl, ?_⟩
  rw [TypeDenotesIn]
  refine ⟨[242, 0, 0, 0, 32], [7, 9], rfl, ⟨_, number_over, by rw [ht]; decide⟩,
    [7], [9], rfl, ?_, [9], [], rfl, ?_, rfl⟩ <;>
  · rw [TypeDenotesIn, TypeDenotes]

/-- The sample record is read on a 32-bit target as on a 64-bit one. -/
example (bs rest : List UInt8) (v : Carrier recordTy) (hb : ∀ b ∈ bs, b.toNat < 240)
    (h : TypeDenotes .debug sampleEnv recordTy v bs) (hr : ∀ b ∈ rest, b.toNat < 240) :
    Prog.run ⟨.w32, 4096⟩ (deTy ⟨.w32, 4096⟩ .debug sampleEnv recordTy) (bs ++ rest)
      = .ok (v, rest) :=
  (C126_alike ⟨.w32, 4096⟩ ⟨.w64, 4096⟩ (by decide) (by decide) _ _ _ _ _ _
    fun b hx => (List.mem_append.mp hx).elim (hb b) (hr b)).mpr
    ((C123_accepts _ rfl (by decide) _ _ _ _ _ _).mpr ⟨bs, rfl, h⟩)

/-- And a vector of strings and numbers, byte by byte. -/
example (env : Env) : Prog.run ⟨.w32, 4096⟩ (deTy ⟨.w32, 4096⟩ .debug env (.tuple [.string, .vec .bool]))
    [2, 97, 98, 2, 1, 0, 9]
      = .ok ((("ab", [true, false], ()) : String × List Bool × Unit), [9]) := by
  refine (C126_alike ⟨.w32, 4096⟩ ⟨.w64, 4096⟩ (by decide) (by decide) _ _ _ _ _ _
    (by decide)).mpr ((C123_accepts _ rfl (by decide) _ _ _ _ _ _).mpr
      ⟨[2, 97, 98, 2, 1, 0], rfl, ?_⟩)
  rw [TypeDenotes, TupleDenotes]
  refine ⟨[2, 97, 98], [2, 1, 0], rfl, ?_, ?_⟩
  · rw [TypeDenotes]
    exact ⟨[2], .inl ⟨1, by decide, by decide, by decide, by decide⟩, by decide⟩
  · rw [TupleDenotes]
    refine ⟨[2, 1, 0], [], rfl, ?_, rfl⟩
    rw [TypeDenotes]
    refine ⟨[2], [1, 0], rfl, .inl ⟨1, by decide, by decide, by decide, by decide⟩, [1], [0], rfl,
      ?_, [0], [], rfl, ?_, rfl⟩ <;>
    · rw [TypeDenotes]; rfl

/-! ## C127 bodies -/

/-- Deserializing under a header yields a body and leaves a rest exactly if what it took, followed
by that rest, stands for the body, and there is memory for all vectors. -/
theorem C127_accepts (t : Target) (hm : 4096 ≤ t.memLimit) (mode : BuildMode) (size : Nat)
    (h : Header) (bs rest : List UInt8) (b : Body) :
    Prog.run t (Body.de t mode size h) bs = .ok (b, rest) ↔
      ∃ used, bs = used ++ rest ∧ BodyDenotesIn t.ptr.bits mode (Room t size) h b used rest :=
  Body.parsesIn_body hm mode size h bs b rest

/-- Without arrays, with memory for the tuples and without dates (or without overflow checks)
everything else is an error. -/
theorem C127_rejects (t : Target) (hm : 4096 ≤ t.memLimit) (mode : BuildMode) (size : Nat)
    (h : Header) (ha : ∀ h', .array h' ∉ headerParts h)
    (hr : ∀ hs, .tuple hs ∈ headerParts h → Room t size hs.length)
    (hd : .date ∈ headerParts h → mode = .release) (bs : List UInt8) :
    (∃ e, Prog.run t (Body.de t mode size h) bs = .err e) ↔
      ∀ used rest b, bs = used ++ rest →
        ¬ BodyDenotesIn t.ptr.bits mode (Room t size) h b used rest := by
  constructor
  · rintro ⟨e, he⟩ used rest b rfl hb
    rw [(C127_accepts t hm mode size h _ rest b).mpr ⟨used, rfl, hb⟩] at he
    cases he
  · intro hn
    have hx := C62_no_panic t hm mode size h ha
      (fun hs hh => (Body.room_iff t size _).mpr (hr hs hh)) hd bs
    cases hy : Prog.run t (Body.de t mode size h) bs with
    | ok br =>
      obtain ⟨used, hu, hb⟩ := (C127_accepts t hm mode size h bs br.2 br.1).mp hy
      exact (hn used br.2 br.1 hu hb).elim
    | err e => exact ⟨e, rfl⟩
    | panic p => rw [hy] at hx; exact hx.elim

/-- With 64 bits it is the grammar of Spec/BodyGrammar.lean, whatever follows. -/
theorem C127_wide (mode : BuildMode) (room : Nat → Prop) (h : Header) (b : Body)
    (u rest : List UInt8) :
    BodyDenotesIn 64 mode room h b u rest ↔ BodyDenotes mode room h b u :=
  bodyDenotesIn_iff (ok := fun _ => True) (fun m l h _ => number_wide m l h) mode room h b u rest
    fun _ _ => trivial

/-- Data without bytes from 240 on are read alike on all targets with room for the same
vectors. -/
theorem C127_alike (t t' : Target) (hm : 4096 ≤ t.memLimit) (hm' : 4096 ≤ t'.memLimit)
    (mode : BuildMode) (size size' : Nat) (hs : ∀ n, Room t size n ↔ Room t' size' n) (h : Header)
    (bs rest : List UInt8) (b : Body) (hb : ∀ b ∈ bs, b.toNat < 240) :
    Prog.run t (Body.de t mode size h) bs = .ok (b, rest) ↔
      Prog.run t' (Body.de t' mode size' h) bs = .ok (b, rest) := by
  have hr : Room t size = Room t' size' := funext fun n => propext (hs n)
  have key : ∀ (s : Target) (used : List UInt8), (∀ b ∈ used, b.toNat < 240) →
      (BodyDenotesIn s.ptr.bits mode (Room t' size') h b used rest ↔
        BodyDenotes mode (Room t' size') h b used) :=
    fun s used hu => bodyDenotesIn_iff (ok := fun b => b.toNat < 240) (number_fits s) mode _ h b
      used rest hu
  rw [C127_accepts t hm, C127_accepts t' hm', hr]
  constructor <;>
  · rintro ⟨used, rfl, h⟩
    have hu : ∀ b ∈ used, b.toNat < 240 := fun b hx => hb b (by simp [hx])
    exact ⟨used, rfl, by rw [key _ used hu] at h ⊢; exact h⟩

/-- Unlike a `Vec`, an array is read with as many elements as were announced, on every target. -/
theorem C127_count (t : Target) (hm : 4096 ≤ t.memLimit) (mode : BuildMode) (size n : Nat)
    (h : Header) (l bs rest : List UInt8) (b : Body) (hn : Number 64 n l)
    (hx : Prog.run t (Body.de t mode size (.array h)) (l ++ bs) = .ok (b, rest)) :
    ∃ cs, b = .array cs ∧ cs.length = n := by
  obtain ⟨used, hu, hd⟩ := (C127_accepts t hm mode size _ _ _ _).mp hx
  rw [BodyDenotesIn] at hd
  obtain ⟨cs, l', u, rfl, rfl, h1, -, -⟩ := hd
  refine ⟨cs, rfl, ?_⟩
  have h2 := (number_decode 64 (by simp) n (l ++ bs) bs).mpr ⟨l, rfl, hn⟩
  have h3 := (number_decode 64 (by simp) cs.length (l ++ bs) (u ++ rest)).mpr
    ⟨l', by rw [hu, List.append_assoc], h1⟩
  rw [h2] at h3
  exact (congrArg Prod.fst (Option.some.inj h3)).symm

/-- So where addresses have 32 bits data are read as a `Vec<u8>` that are not read as an array of
`u8`s. -/
theorem C127_disagree (t : Target) (ht : t.ptr = .w32) (hm : 4096 ≤ t.memLimit) (mode : BuildMode)
    (env : Env) (size : Nat) (rest : List UInt8) (hr : rest.length < 2 ^ 32) :
    Prog.run t (deTy t mode env (.vec .u8)) ([242, 0, 0, 0, 32, 7, 9] ++ rest)
        = .ok (([7, 9] : List UInt8), rest) ∧
      ∀ b rest', Prog.run t (Body.de t mode size (.array .uint8)) ([242, 0, 0, 0, 32, 7, 9] ++ rest)
        ≠ .ok (b, rest') := by
  refine ⟨C126_count t ht hm mode env rest, fun b rest' hx => ?_⟩
  obtain ⟨cs, rfl, hc⟩ := C127_count t hm mode size 4294967298 .uint8 [242, 0, 0, 0, 32]
    ([7, 9] ++ rest) rest' b number_over (by simpa using hx)
  obtain ⟨used, hu, hd⟩ := (C127_accepts t hm mode size _ _ _ _).mp hx
  rw [BodyDenotesIn] at hd
  obtain ⟨cs', l', u, h0, rfl, h1, h2, -⟩ := hd
  cases h0
  have hle : ∀ (ws : List Body) (x r : List UInt8),
      JoinedIn (BodyDenotesIn t.ptr.bits mode (Room t size) .uint8) ws x r →
        ws.length = x.length := by
    intro ws
    induction ws with
    | nil => rintro x r rfl; rfl
    | cons w ws ih =>
      rintro x r ⟨a, b, rfl, ha, hb⟩
      rw [BodyDenotesIn, BodyDenotes] at ha
      · obtain ⟨y, rfl, rfl⟩ := ha
        simp [ih b r hb]
      all_goals simp
  have := hle cs u rest' h2
  have h2' := (number_decode 64 (by simp) 4294967298
    ([242, 0, 0, 0, 32] ++ ([7, 9] ++ rest)) ([7, 9] ++ rest)).mpr ⟨_, rfl, number_over⟩
  have h3' := (number_decode 64 (by simp) cs.length
    ([242, 0, 0, 0, 32] ++ ([7, 9] ++ rest)) (u ++ rest')).mpr
    ⟨l', by rw [← List.append_assoc l', ← hu]; simp, h1⟩
  rw [h2'] at h3'
  have hx := congrArg (fun o : Option (Nat × List UInt8) => (o.map fun p => p.2.length)) h3'
  simp at hx
  omega

/-- Targets to which `C127_alike` applies. -/
example : ∀ n, Room ⟨.w32, 4096⟩ 24 n ↔ Room ⟨.w64, 4096⟩ 24 n := by
  intro n
  simp only [Room, PtrWidth.bits]
  omega

/-- A body read on a 32-bit target. -/
example : Prog.run ⟨.w32, 4096⟩ (Body.de ⟨.w32, 4096⟩ .debug 24 (.array .uint8)) [2, 7, 9, 5]
    = .ok (.array [.uint8 7, .uint8 9], [5]) := by
  refine (C127_accepts _ (by decide) _ _ _ _ _ _).mpr ⟨[2, 7, 9], rfl, ?_⟩
  rw [BodyDenotesIn]
  refine ⟨_, [2], [7, 9], rfl, rfl, .inl ⟨1, by decide, by decide, by decide, by decide⟩,
    ⟨[7], [9], rfl, ?_, [9], [], rfl, ?_, rfl⟩, by unfold Room; decide⟩ <;>
  · rw [BodyDenotesIn, BodyDenotes] <;> simp

end Dlhn.Props
