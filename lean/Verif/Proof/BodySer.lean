import Verif.Proof.BodyYield
import Verif.Proof.SerGen
/-! # The dynamic encoder on failing writers; panics of the dynamic decoder -/
namespace Dlhn.Body

open Spec PrefixVarint

theorem maps_emit (bs : List UInt8) : WProg.Maps (fun _ => SerErr.write) (Ser.emit bs) :=
  ⟨fun _ => rfl, trivial⟩
theorem maps_str (s : String) : WProg.Maps (fun _ => SerErr.write) (Ser.serStr s) :=
  (maps_emit _).andThen (maps_emit _)
theorem maps_bytes (bs : List UInt8) : WProg.Maps (fun _ => SerErr.write) (Ser.serBytes bs) :=
  (maps_emit _).andThen (maps_emit _)
theorem maps_hint (o : Option Nat) : WProg.Maps (fun _ => SerErr.write) (Ser.serHint o) := by
  cases o
  · trivial
  · exact maps_emit _
theorem maps_u8s (bs : List UInt8) : WProg.Maps (fun _ => SerErr.write) (Ser.serU8s bs) := by
  induction bs with
  | nil => trivial
  | cons b bs ih => exact (maps_emit _).andThen ih
theorem maps_vecU8 (bs : List UInt8) : WProg.Maps (fun _ => SerErr.write) (Ser.serVecU8 bs) :=
  (maps_emit _).andThen (maps_u8s bs)
theorem maps_decimal (v : BigDecimal) : WProg.Maps (fun _ => SerErr.write) v.ser := by
  refine (maps_hint _).andThen ?_
  split
  · exact maps_emit _
  · exact (maps_vecU8 _).andThen (maps_emit _)
theorem maps_date (mode : BuildMode) (d : Date) : WProg.Maps (fun _ => SerErr.write) (d.ser mode) := by
  rw [Date.ser]
  split
  · trivial
  · refine (maps_emit _).andThen ?_
    split
    · trivial
    · exact maps_emit _

mutual
theorem maps_ser (mode : BuildMode) : (b : Body) →
    WProg.Maps (fun _ => SerErr.write) (ser mode b)
  | .unit => by rw [ser]; trivial
  | .none => by rw [ser]; exact maps_emit _
  | .some b => by rw [ser]; exact (maps_emit _).andThen (maps_ser mode b)
  | .boolean b => by rw [ser]; cases b <;> exact maps_emit _
  | .uint8 v => by rw [ser]; exact maps_emit _
  | .uint16 v => by rw [ser]; exact maps_emit _
  | .uint32 v => by rw [ser]; exact maps_emit _
  | .uint64 v => by rw [ser]; exact maps_emit _
  | .int8 v => by rw [ser]; exact maps_emit _
  | .int16 v => by rw [ser]; exact maps_emit _
  | .int32 v => by rw [ser]; exact maps_emit _
  | .int64 v => by rw [ser]; exact maps_emit _
  | .float32 v => by rw [ser]; exact maps_emit _
  | .float64 v => by rw [ser]; exact maps_emit _
  | .bigUInt v => by rw [ser]; exact (maps_hint _).andThen (maps_vecU8 _)
  | .bigInt v => by rw [ser]; exact (maps_hint _).andThen (maps_vecU8 _)
  | .bigDecimal v => by rw [ser]; exact maps_decimal v
  | .string s => by rw [ser]; exact maps_str s
  | .binary bs => by rw [ser]; exact maps_bytes bs
  | .array bs => by rw [ser]; exact (maps_hint _).andThen (maps_serAll mode bs)
  | .tuple bs => by rw [ser]; exact maps_serAll mode bs
  | .map es => by rw [ser]; exact (maps_hint _).andThen (maps_serEntries mode es)
  | .enum i b => by rw [ser]; exact (maps_emit _).andThen (maps_ser mode b)
  | .date d => by rw [ser]; exact maps_date mode d
  | .dateTime d => by rw [ser]; exact (maps_emit _).andThen (maps_emit _)
theorem maps_serAll (mode : BuildMode) : (bs : List Body) →
    WProg.Maps (fun _ => SerErr.write) (serAll mode bs)
  | [] => by rw [serAll]; trivial
  | b :: bs => by rw [serAll]; exact (maps_ser mode b).andThen (maps_serAll mode bs)
theorem maps_serEntries (mode : BuildMode) : (es : List (String × Body)) →
    WProg.Maps (fun _ => SerErr.write) (serEntries mode es)
  | [] => by rw [serEntries]; trivial
  | (k, b) :: es => by
    rw [serEntries]
    exact (maps_str k).andThen ((maps_ser mode b).andThen (maps_serEntries mode es))
end

/-! ## Panics -/

/-- Every panic of the decoder satisfies `R`. -/
def PanicsIn (t : Target) (R : PanicKind → Prop) {α : Type} (p : Prog DeErr α) : Prop :=
  ∀ fin bs q, Prog.exec t fin p bs = .panic q → R q

theorem panicsIn_total {t : Target} {R : PanicKind → Prop} {α : Type} {p : Prog DeErr α}
    (h : Prog.Total t p) : PanicsIn t R p := by
  intro fin bs q hx
  have := h.exec fin bs
  rw [hx] at this
  exact absurd this (by simp [Outcome.returns])

theorem closed_panicsIn {t : Target} (hm : 4096 ≤ t.memLimit) (R : PanicKind → Prop) :
    De.Closed t (fun {_} p => PanicsIn t R p) where
  ok := fun a => panicsIn_total ((De.closed_total hm).ok a)
  err := fun e => panicsIn_total ((De.closed_total hm).err e)
  bind := fun {_ _ p f} hp hf fin bs q hx => by
    rw [Prog.exec_bind] at hx
    cases ho : Prog.exec t fin p bs with
    | ok ar =>
      obtain ⟨a, r⟩ := ar
      rw [ho, Prog.next_ok] at hx
      exact hf a fin r q hx
    | err e => simp [ho, Prog.next] at hx
    | panic e =>
      simp only [ho, Prog.next, Outcome.panic.injEq] at hx
      subst hx
      exact hp fin bs e ho
  read := fun n hn => panicsIn_total ((De.closed_total hm).read n hn)
  u16 := panicsIn_total (De.closed_total hm).u16
  u32 := panicsIn_total (De.closed_total hm).u32
  u64 := panicsIn_total (De.closed_total hm).u64
  string := panicsIn_total (De.closed_total hm).string
  byteBuf := panicsIn_total (De.closed_total hm).byteBuf

/-- The panics the dynamic decoder can have. -/
theorem panicsIn_body {t : Target} (hm : 4096 ≤ t.memLimit) (mode : BuildMode) (size : Nat)
    (h : Header) (R : PanicKind → Prop)
    (ha : ∀ h', .array h' ∈ headerParts h → R .capacityOverflow ∧ R .allocFailure)
    (ht : ∀ hs, .tuple hs ∈ headerParts h → t.allocate (hs.length * size) = Option.none ∨
      (R .capacityOverflow ∧ R .allocFailure))
    (hd : .date ∈ headerParts h → mode = .release ∨ R .overflow) :
    PanicsIn t R (de t mode size h) := by
  refine closed_body (closed_panicsIn hm R) mode size
    (fun n => t.allocate n = Option.none ∨ (R .capacityOverflow ∧ R .allocFailure)) ?_ h
    (fun h' x n => .inr (ha h' x)) ht fun x => (hd x).imp_right fun hR => ?_
  · intro α n k hA hk fin bs q hx
    rw [Prog.exec] at hx
    split at hx
    · rename_i p hp
      simp only [Outcome.panic.injEq] at hx
      subst hx
      rcases hA with hA | hA
      · rw [hA] at hp; cases hp
      · simp only [Target.allocate] at hp
        split at hp
        · cases hp; exact hA.1
        · split at hp
          · cases hp; exact hA.2
          · cases hp
    · exact hk fin bs q hx
  · intro α fin bs q hx
    simp only [Prog.exec, Outcome.panic.injEq] at hx
    exact hx ▸ hR

/-! ## Width -/

theorem varint_ne_nil (w n : Nat) : varint w n ≠ [] := by
  intro h
  have h1 := length_varint w n
  have h2 := PrefixVarint.groups_pos n
  rw [h, varintLen] at h1
  simp at h1
  omega

theorem block_ne_nil (bs : List UInt8) : block bs ≠ [] := by
  rw [block]; simp [varint_ne_nil]

mutual
/-- A body is written as nothing exactly if its header says so. -/
theorem bodyWire_nil : (h : Header) → (b : Body) → Conforms h b → (bodyWire b = [] ↔ ZeroWidth h)
  | .unit, b, hc => by cases hc; simp [bodyWire, ZeroWidth]
  | .tuple hs, b, hc => by
    cases hc with
    | tuple _ bs hl hc => rw [bodyWire, ZeroWidth]; exact bodiesWire_nil hs bs hl hc
  | .optional h, b, hc => by cases hc <;> simp [bodyWire, ZeroWidth]
  | .boolean, b, hc => by cases hc; simp [bodyWire, ZeroWidth]
  | .uint8, b, hc => by cases hc; simp [bodyWire, ZeroWidth]
  | .uint16, b, hc => by cases hc; simp [bodyWire, ZeroWidth, varint_ne_nil]
  | .uint32, b, hc => by cases hc; simp [bodyWire, ZeroWidth, varint_ne_nil]
  | .uint64, b, hc => by cases hc; simp [bodyWire, ZeroWidth, varint_ne_nil]
  | .int8, b, hc => by cases hc; simp [bodyWire, ZeroWidth]
  | .int16, b, hc => by cases hc; simp [bodyWire, ZeroWidth, varint_ne_nil]
  | .int32, b, hc => by cases hc; simp [bodyWire, ZeroWidth, varint_ne_nil]
  | .int64, b, hc => by cases hc; simp [bodyWire, ZeroWidth, varint_ne_nil]
  | .float32, b, hc => by cases hc; simp [bodyWire, ZeroWidth, leBytes]
  | .float64, b, hc => by cases hc; simp [bodyWire, ZeroWidth, leBytes]
  | .bigUInt, b, hc => by cases hc; simp [bodyWire, ZeroWidth, block_ne_nil]
  | .bigInt, b, hc => by cases hc; simp [bodyWire, ZeroWidth, block_ne_nil]
  | .bigDecimal, b, hc => by
    cases hc
    rw [bodyWire, decimalWire]
    split <;> simp [ZeroWidth, block_ne_nil]
  | .string, b, hc => by cases hc; simp [bodyWire, ZeroWidth, block_ne_nil]
  | .binary, b, hc => by cases hc; simp [bodyWire, ZeroWidth, block_ne_nil]
  | .array h, b, hc => by cases hc; simp [bodyWire, ZeroWidth, varint_ne_nil]
  | .map h, b, hc => by cases hc; simp [bodyWire, ZeroWidth, varint_ne_nil]
  | .enum hs, b, hc => by cases hc; simp [bodyWire, ZeroWidth, varint_ne_nil]
  | .date, b, hc => by cases hc; simp [bodyWire, dateWire, ZeroWidth, varint_ne_nil]
  | .dateTime, b, hc => by cases hc; simp [bodyWire, dateTimeWire, ZeroWidth, varint_ne_nil]
theorem bodiesWire_nil : (hs : List Header) → (bs : List Body) → hs.length = bs.length →
    (∀ (i : Nat) (h : Header) (b : Body), hs[i]? = Option.some h → bs[i]? = Option.some b →
      Conforms h b) → (bodiesWire bs = [] ↔ AllZeroWidth hs)
  | [], [], _, _ => by simp [bodiesWire, AllZeroWidth]
  | [], _ :: _, hl, _ => by simp at hl
  | _ :: _, [], hl, _ => by simp at hl
  | h :: hs, b :: bs, hl, hc => by
    rw [bodiesWire, AllZeroWidth, List.append_eq_nil_iff, bodyWire_nil h b (hc 0 h b rfl rfl),
      bodiesWire_nil hs bs (by simpa using hl) fun i h' b' h1 h2 => hc (i + 1) h' b' (by simpa using h1)
        (by simpa using h2)]
end

theorem length_bodiesWire (bs : List Body) (h : ∀ b ∈ bs, bodyWire b ≠ []) :
    bs.length ≤ (bodiesWire bs).length := by
  induction bs with
  | nil => simp
  | cons b bs ih =>
    have h1 : 0 < (bodyWire b).length := List.length_pos_iff.mpr (h b (by simp))
    have h2 := ih fun c hc => h c (by simp [hc])
    rw [bodiesWire, List.length_append, List.length_cons]
    omega

theorem length_entriesWire (es : List (String × Body)) : es.length ≤ (entriesWire es).length := by
  induction es with
  | nil => simp
  | cons e es ih =>
    have h1 : 0 < (block (utf8 e.1)).length := List.length_pos_iff.mpr (block_ne_nil _)
    rw [entriesWire, List.length_append, List.length_append, List.length_cons]
    omega

end Dlhn.Body
