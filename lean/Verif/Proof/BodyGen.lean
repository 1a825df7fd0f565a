import Verif.Proof.BodyDe
/-! # The dynamic decoder on every header and every input -/
namespace Dlhn.Body

open Spec PrefixVarint
open De (Closed)

/-! ## Predicates closed under sequencing -/

section
variable {t : Target} {P : ∀ {α : Type}, Prog DeErr α → Prop} (hP : Closed t @P)
include hP

theorem closed_vecU8 : P (De.deVecU8 t) :=
  hP.bind hP.u64 fun _ => hP.times (hP.wrap (hP.read 1 (by decide)) _) _

theorem closed_bigUint : P (BigUint.de t) := hP.wrap (closed_vecU8 hP) _
theorem closed_bigInt : P (BigInt.de t) := hP.wrap (closed_vecU8 hP) _
theorem closed_bigDecimal : P (BigDecimal.de t) := by
  refine hP.bind (closed_vecU8 hP) fun bs => ?_
  split
  · exact hP.ok _
  · exact hP.wrap (hP.wrap hP.u64 _) _

theorem closed_date (mode : BuildMode)
    (hd : mode = .release ∨ ∀ {α : Type}, P (.done (.panic .overflow) : Prog DeErr α)) :
    P (Date.de mode) := by
  refine hP.bind (hP.wrap hP.u32 _) fun y => ?_
  split
  · rcases hd with rfl | hd
    · rename_i h; simp [addI32] at h
    · exact hd
  · refine hP.bind hP.u16 fun o => ?_
    split
    · rcases hd with rfl | hd
      · rename_i h; simp [addU16] at h
      · exact hd
    · exact hP.ok _

theorem closed_dateTime : P DateTime.de :=
  hP.bind (hP.wrap hP.u64 _) fun _ => hP.wrap hP.u32 _

theorem closed_insertLoop {p : Prog DeErr Body} (h : P p) (n : Nat) (m : List (String × Body)) :
    P (insertLoop t p n m) := by
  induction n generalizing m with
  | zero => exact hP.ok _
  | succ n ih => exact hP.bind hP.string fun k => hP.bind h fun v => ih _

end

mutual
/-- `A` says which allocation sizes are acceptable. -/
theorem closed_body {t : Target} {P : ∀ {α : Type}, Prog DeErr α → Prop} (hP : Closed t @P)
    (mode : BuildMode) (size : Nat) (A : Nat → Prop)
    (hA : ∀ {α : Type} (n : Nat) (k : Prog DeErr α), A n → P k → P (.alloc n k)) :
    (h : Header) → (∀ h', .array h' ∈ headerParts h → ∀ n, A n) →
    (∀ hs, .tuple hs ∈ headerParts h → A (hs.length * size)) →
    (.date ∈ headerParts h → mode = .release ∨ ∀ {α : Type}, P (.done (.panic .overflow) : Prog DeErr α)) →
    P (de t mode size h)
  | .unit, _, _, _ => by rw [de]; exact hP.ok _
  | .optional h, ha, ht, hd => by
    rw [de]
    refine hP.bind hP.bool fun b => ?_
    split
    · exact hP.wrap (closed_body hP mode size A hA h (fun h' x => ha h' (by simp [headerParts, x]))
        (fun hs x => ht hs (by simp [headerParts, x])) fun x => hd (by simp [headerParts, x])) _
    · exact hP.ok _
  | .boolean, _, _, _ => by rw [de]; exact hP.wrap hP.bool _
  | .uint8, _, _, _ => by rw [de]; exact hP.wrap (hP.wrap (hP.read 1 (by decide)) _) _
  | .uint16, _, _, _ => by rw [de]; exact hP.wrap hP.u16 _
  | .uint32, _, _, _ => by rw [de]; exact hP.wrap hP.u32 _
  | .uint64, _, _, _ => by rw [de]; exact hP.wrap hP.u64 _
  | .int8, _, _, _ => by rw [de]; exact hP.wrap (hP.wrap (hP.read 1 (by decide)) _) _
  | .int16, _, _, _ => by rw [de]; exact hP.wrap (hP.wrap hP.u16 _) _
  | .int32, _, _, _ => by rw [de]; exact hP.wrap (hP.wrap hP.u32 _) _
  | .int64, _, _, _ => by rw [de]; exact hP.wrap (hP.wrap hP.u64 _) _
  | .float32, _, _, _ => by rw [de]; exact hP.wrap (hP.wrap (hP.read 4 (by decide)) _) _
  | .float64, _, _, _ => by rw [de]; exact hP.wrap (hP.wrap (hP.read 8 (by decide)) _) _
  | .bigUInt, _, _, _ => by rw [de]; exact hP.wrap (closed_bigUint hP) _
  | .bigInt, _, _, _ => by rw [de]; exact hP.wrap (closed_bigInt hP) _
  | .bigDecimal, _, _, _ => by rw [de]; exact hP.wrap (closed_bigDecimal hP) _
  | .string, _, _, _ => by rw [de]; exact hP.wrap hP.string _
  | .binary, _, _, _ => by rw [de]; exact hP.wrap hP.byteBuf _
  | .array h, ha, ht, hd => by
    rw [de]
    refine hP.bind hP.u64 fun len => hA _ _ (ha h (by simp [headerParts]) _) ?_
    exact hP.wrap (hP.times (closed_body hP mode size A hA h
      (fun h' x => ha h' (by simp [headerParts, x])) (fun hs x => ht hs (by simp [headerParts, x]))
      fun x => hd (by simp [headerParts, x])) _) _
  | .tuple hs, ha, ht, hd => by
    rw [de]
    refine hA _ _ (ht hs (by simp [headerParts])) ?_
    exact hP.wrap (closed_bodies hP mode size A hA hs (fun h' x => ha h' (by simp [headerParts, x]))
      (fun hs x => ht hs (by simp [headerParts, x])) fun x => hd (by simp [headerParts, x])) _
  | .map h, ha, ht, hd => by
    rw [de]
    refine hP.bind hP.u64 fun len => hP.wrap (closed_insertLoop hP (closed_body hP mode size A hA h
      (fun h' x => ha h' (by simp [headerParts, x])) (fun hs x => ht hs (by simp [headerParts, x]))
      fun x => hd (by simp [headerParts, x])) _ _) _
  | .enum hs, ha, ht, hd => by
    rw [de]
    refine hP.bind hP.u32 fun i => hP.wrap (closed_nth hP mode size A hA hs
      (fun h' x => ha h' (by simp [headerParts, x])) (fun hs x => ht hs (by simp [headerParts, x]))
      (fun x => hd (by simp [headerParts, x])) _) _
  | .date, _, _, hd => by
    rw [de]; exact hP.wrap (closed_date hP mode (hd (by simp [headerParts]))) _
  | .dateTime, _, _, _ => by rw [de]; exact hP.wrap (closed_dateTime hP) _
theorem closed_bodies {t : Target} {P : ∀ {α : Type}, Prog DeErr α → Prop} (hP : Closed t @P)
    (mode : BuildMode) (size : Nat) (A : Nat → Prop)
    (hA : ∀ {α : Type} (n : Nat) (k : Prog DeErr α), A n → P k → P (.alloc n k)) :
    (hs : List Header) → (∀ h', .array h' ∈ headersParts hs → ∀ n, A n) →
    (∀ hs', .tuple hs' ∈ headersParts hs → A (hs'.length * size)) →
    (.date ∈ headersParts hs → mode = .release ∨ ∀ {α : Type}, P (.done (.panic .overflow) : Prog DeErr α)) →
    P (deAll t mode size hs)
  | [], _, _, _ => by rw [deAll]; exact hP.ok _
  | h :: hs, ha, ht, hd => by
    rw [deAll]
    refine hP.bind (closed_body hP mode size A hA h (fun h' x => ha h' (by simp [headersParts, x]))
      (fun hs x => ht hs (by simp [headersParts, x])) fun x => hd (by simp [headersParts, x])) fun b => ?_
    exact hP.wrap (closed_bodies hP mode size A hA hs (fun h' x => ha h' (by simp [headersParts, x]))
      (fun hs x => ht hs (by simp [headersParts, x])) fun x => hd (by simp [headersParts, x])) _
theorem closed_nth {t : Target} {P : ∀ {α : Type}, Prog DeErr α → Prop} (hP : Closed t @P)
    (mode : BuildMode) (size : Nat) (A : Nat → Prop)
    (hA : ∀ {α : Type} (n : Nat) (k : Prog DeErr α), A n → P k → P (.alloc n k)) :
    (hs : List Header) → (∀ h', .array h' ∈ headersParts hs → ∀ n, A n) →
    (∀ hs', .tuple hs' ∈ headersParts hs → A (hs'.length * size)) →
    (.date ∈ headersParts hs → mode = .release ∨ ∀ {α : Type}, P (.done (.panic .overflow) : Prog DeErr α)) →
    (n : Nat) → P (deNth t mode size n hs)
  | [], _, _, _, n => by rw [deNth]; exact hP.err _
  | h :: hs, ha, ht, hd, 0 => by
    rw [deNth]
    exact closed_body hP mode size A hA h (fun h' x => ha h' (by simp [headersParts, x]))
      (fun hs x => ht hs (by simp [headersParts, x])) fun x => hd (by simp [headersParts, x])
  | h :: hs, ha, ht, hd, n + 1 => by
    rw [deNth]
    exact closed_nth hP mode size A hA hs (fun h' x => ha h' (by simp [headersParts, x]))
      (fun hs x => ht hs (by simp [headersParts, x])) (fun x => hd (by simp [headersParts, x])) n
end

/-- Reading one byte string after another with `Read` as the only reader error. -/
theorem strict_body {t : Target} (h64 : t.ptr = .w64) (mode : BuildMode) (size : Nat) (h : Header) :
    Prog.Strict De.orRead (de t mode size h) :=
  closed_body (De.closed_strict h64) mode size (fun _ => True) (fun _ _ _ hk => hk) h
    (fun _ _ _ => trivial) (fun _ _ => trivial) fun _ => .inr trivial

theorem total_body {t : Target} (hm : 4096 ≤ t.memLimit) (mode : BuildMode) (size : Nat) (h : Header)
    (ha : ∀ h', .array h' ∉ headerParts h)
    (ht : ∀ hs, .tuple hs ∈ headerParts h → t.allocate (hs.length * size) = Option.none)
    (hd : .date ∈ headerParts h → mode = .release) : Prog.Total t (de t mode size h) :=
  closed_body (De.closed_total hm) mode size (fun n => t.allocate n = Option.none)
    (fun _ _ h1 h2 => ⟨h1, h2⟩) h
    (fun h' x => absurd x (ha h')) ht fun x => .inl (hd x)

theorem allocLe_body (t : Target) (mode : BuildMode) (size : Nat) (h : Header) (c : Nat)
    (hc : 4096 ≤ c) (ha : ∀ h', .array h' ∉ headerParts h)
    (ht : ∀ hs, .tuple hs ∈ headerParts h → hs.length * size ≤ c) :
    Prog.AllocLe c (de t mode size h) := by
  have hP : Closed t (fun {_} p => Prog.AllocLe c p) := by
    have h0 := De.closed_allocLe t
    have mono : ∀ {α : Type} (p : Prog DeErr α), Prog.AllocLe 4096 p → Prog.AllocLe c p := by
      intro α p hp
      induction p with
      | done o => trivial
      | readExact n e k ih => exact fun bs => ih bs (hp bs)
      | takeToEnd n e k ih => exact fun bs => ih bs (hp bs)
      | alloc n k ih => exact ⟨Nat.le_trans hp.1 hc, ih hp.2⟩
    exact {
      ok := fun a => mono _ (h0.ok a)
      err := fun e => mono _ (h0.err e)
      bind := fun h1 h2 => Prog.AllocLe.bind h1 h2
      read := fun n hn => mono _ (h0.read n hn)
      u16 := mono _ h0.u16
      u32 := mono _ h0.u32
      u64 := mono _ h0.u64
      string := mono _ h0.string
      byteBuf := mono _ h0.byteBuf }
  exact closed_body hP mode size (· ≤ c) (fun _ _ h1 h2 => ⟨h1, h2⟩) h
    (fun h' x => absurd x (ha h')) ht fun _ => .inr trivial

/-! ## What a successful decode guarantees -/

/-- Every result satisfies `Q`. -/
def Returns {α : Type} (t : Target) (p : Prog DeErr α) (Q : α → Prop) : Prop :=
  ∀ fin bs a rest, Prog.exec t fin p bs = .ok (a, rest) → Q a

theorem Returns.any {α : Type} {t : Target} {p : Prog DeErr α} : Returns t p fun _ => True :=
  fun _ _ _ _ _ => trivial

theorem Returns.done_ok {α : Type} {t : Target} {a : α} {Q : α → Prop} (h : Q a) :
    Returns t (.done (.ok a)) Q := by
  intro fin bs a' rest hx
  simp only [Prog.exec, Outcome.ok.injEq, Prod.mk.injEq] at hx
  rw [← hx.1]; exact h

theorem Returns.done_err {α : Type} {t : Target} {e : DeErr} {Q : α → Prop} :
    Returns t (.done (.err e)) Q := by
  intro fin bs a' rest hx
  simp [Prog.exec] at hx

theorem Returns.bind {α β : Type} {t : Target} {p : Prog DeErr α} {f : α → Prog DeErr β}
    {Q : α → Prop} {R : β → Prop} (hp : Returns t p Q) (hf : ∀ a, Q a → Returns t (f a) R) :
    Returns t (Prog.bind p f) R := by
  intro fin bs b rest hx
  rw [Prog.exec_bind] at hx
  cases ho : Prog.exec t fin p bs with
  | ok ar =>
    obtain ⟨a, r⟩ := ar
    rw [ho, Prog.next_ok] at hx
    exact hf a (hp fin bs a r ho) fin r b rest hx
  | err e => simp [ho, Prog.next] at hx
  | panic e => simp [ho, Prog.next] at hx

theorem Returns.alloc {α : Type} {t : Target} {p : Prog DeErr α} {Q : α → Prop} {n : Nat}
    (h : t.allocate n = Option.none → Returns t p Q) : Returns t (.alloc n p) Q := by
  intro fin bs a rest hx
  simp only [Prog.exec] at hx
  split at hx
  · simp at hx
  · rename_i hn
    exact h hn fin bs a rest hx

theorem Returns.wrap {α β : Type} {t : Target} {p : Prog DeErr α} {Q : α → Prop} {R : β → Prop}
    (hp : Returns t p Q) (f : α → β) (hf : ∀ a, Q a → R (f a)) :
    Returns t (p >>= fun a => pure (f a)) R :=
  hp.bind fun a ha => Returns.done_ok (hf a ha)

theorem Returns.times {α : Type} {t : Target} {p : Prog DeErr α} {Q : α → Prop} (hp : Returns t p Q)
    (n : Nat) : Returns t (De.times n p) fun as => as.length = n ∧ ∀ a ∈ as, Q a := by
  induction n with
  | zero => exact Returns.done_ok (by simp)
  | succ n ih =>
    refine hp.bind fun a ha => ih.bind fun as has => Returns.done_ok ⟨by simp [has.1], fun b hb => ?_⟩
    rcases List.mem_cons.mp hb with rfl | hb
    · exact ha
    · exact has.2 b hb

theorem returns_insertLoop {t : Target} {p : Prog DeErr Body} {Q : Body → Prop}
    (hp : Returns t p Q) (n : Nat) (m : List (String × Body)) (hm : ∀ e ∈ m, Q e.2)
    (ha : Ascending m) :
    Returns t (insertLoop t p n m) fun m' => (∀ e ∈ m', Q e.2) ∧ Ascending m' := by
  induction n generalizing m with
  | zero => exact Returns.done_ok ⟨hm, ha⟩
  | succ n ih =>
    refine Returns.any.bind fun k _ => hp.bind fun v hv => ih _ (fun e he => ?_)
      (ascending_btreeInsert ha k v)
    rcases (mem_btreeInsert ha k v e).mp he with rfl | ⟨_, he⟩
    · exact hv
    · exact hm e he

mutual
theorem returns_conforms (t : Target) (mode : BuildMode) (size : Nat) : (h : Header) →
    Returns t (de t mode size h) (Conforms h)
  | .unit => by rw [de]; exact Returns.done_ok .unit
  | .optional h => by
    rw [de]
    refine Returns.any.bind fun b _ => ?_
    split
    · exact (returns_conforms t mode size h).wrap _ fun c hc => .some _ _ hc
    · exact Returns.done_ok (.none _)
  | .boolean => by rw [de]; exact Returns.any.wrap _ fun v _ => .boolean v
  | .uint8 => by rw [de]; exact Returns.any.wrap _ fun v _ => .uint8 v
  | .uint16 => by rw [de]; exact Returns.any.wrap _ fun v _ => .uint16 v
  | .uint32 => by rw [de]; exact Returns.any.wrap _ fun v _ => .uint32 v
  | .uint64 => by rw [de]; exact Returns.any.wrap _ fun v _ => .uint64 v
  | .int8 => by rw [de]; exact Returns.any.wrap _ fun v _ => .int8 v
  | .int16 => by rw [de]; exact Returns.any.wrap _ fun v _ => .int16 v
  | .int32 => by rw [de]; exact Returns.any.wrap _ fun v _ => .int32 v
  | .int64 => by rw [de]; exact Returns.any.wrap _ fun v _ => .int64 v
  | .float32 => by rw [de]; exact Returns.any.wrap _ fun v _ => .float32 v
  | .float64 => by rw [de]; exact Returns.any.wrap _ fun v _ => .float64 v
  | .bigUInt => by rw [de]; exact Returns.any.wrap _ fun v _ => .bigUInt v
  | .bigInt => by rw [de]; exact Returns.any.wrap _ fun v _ => .bigInt v
  | .bigDecimal => by rw [de]; exact Returns.any.wrap _ fun v _ => .bigDecimal v
  | .string => by rw [de]; exact Returns.any.wrap _ fun v _ => .string v
  | .binary => by rw [de]; exact Returns.any.wrap _ fun v _ => .binary v
  | .array h => by
    rw [de]
    refine Returns.any.bind fun len _ => Returns.alloc fun _ => ?_
    exact ((returns_conforms t mode size h).times _).wrap _ fun bs hbs => .array _ _ hbs.2
  | .tuple hs => by
    rw [de]
    refine Returns.alloc fun _ => (returns_all t mode size hs).wrap _ fun bs hbs => ?_
    exact .tuple _ _ hbs.1 hbs.2
  | .map h => by
    rw [de]
    refine Returns.any.bind fun len _ => (returns_insertLoop (returns_conforms t mode size h) _ []
      (by simp) List.Pairwise.nil).wrap _ fun m hm => .map _ _ hm.1
  | .enum hs => by
    rw [de]
    refine Returns.any.bind fun i _ => (returns_nth t mode size hs i.toNat).wrap _ fun b hb => ?_
    obtain ⟨h, h1, h2⟩ := hb
    exact .enum _ _ h _ h1 h2
  | .date => by rw [de]; exact Returns.any.wrap _ fun v _ => .date v
  | .dateTime => by rw [de]; exact Returns.any.wrap _ fun v _ => .dateTime v
theorem returns_all (t : Target) (mode : BuildMode) (size : Nat) : (hs : List Header) →
    Returns t (deAll t mode size hs) fun bs => hs.length = bs.length ∧
      ∀ (i : Nat) (h : Header) (b : Body), hs[i]? = Option.some h → bs[i]? = Option.some b →
        Conforms h b
  | [] => by rw [deAll]; exact Returns.done_ok (by simp)
  | h :: hs => by
    rw [deAll]
    refine (returns_conforms t mode size h).bind fun b hb => (returns_all t mode size hs).wrap _
      fun bs hbs => ⟨by simp [hbs.1], fun i h' b' hi hj => ?_⟩
    cases i with
    | zero => simp at hi hj; subst hi; subst hj; exact hb
    | succ i => exact hbs.2 i h' b' (by simpa using hi) (by simpa using hj)
theorem returns_nth (t : Target) (mode : BuildMode) (size : Nat) : (hs : List Header) → (n : Nat) →
    Returns t (deNth t mode size n hs) fun b => ∃ h, hs[n]? = Option.some h ∧ Conforms h b
  | [], n => by rw [deNth]; exact Returns.done_err
  | h :: hs, 0 => by
    rw [deNth]
    exact fun fin bs b rest hx => ⟨h, rfl, returns_conforms t mode size h fin bs b rest hx⟩
  | h :: hs, n + 1 => by
    rw [deNth]
    intro fin bs b rest hx
    simpa using returns_nth t mode size hs n fin bs b rest hx
end

end Dlhn.Body
