import Verif.Proof.BodyGen
import Verif.Proof.BodyYield
/-! # The memory for the vectors of a decoded body was granted -/
namespace Dlhn.Body

open Spec De

/-- The memory that was asked for while the body was decoded. -/
def Granted (t : Target) (size : Nat) (b : Body) : Prop :=
  ∀ bs, (.array bs ∈ parts b →
      t.allocate (t.asUsize (UInt64.ofNat bs.length) * size) = Option.none) ∧
    (.tuple bs ∈ parts b → t.allocate (bs.length * size) = Option.none)

theorem Granted.leaf {t : Target} {size : Nat} {b : Body} (h : parts b = [b])
    (h1 : ∀ bs, b ≠ .array bs) (h2 : ∀ bs, b ≠ .tuple bs) : Granted t size b := fun bs => by
  rw [h]
  simp only [List.mem_singleton]
  exact ⟨fun e => absurd e.symm (h1 bs), fun e => absurd e.symm (h2 bs)⟩

theorem Granted.of_parts {t : Target} {size : Nat} {b : Body}
    (h : ∀ c ∈ parts b, c = b ∨ ∃ d, c ∈ parts d ∧ Granted t size d)
    (h1 : ∀ bs, b = .array bs →
      t.allocate (t.asUsize (UInt64.ofNat bs.length) * size) = Option.none)
    (h2 : ∀ bs, b = .tuple bs → t.allocate (bs.length * size) = Option.none) :
    Granted t size b := fun bs =>
  ⟨fun hb => by
    rcases h _ hb with e | ⟨d, hd, g⟩
    · exact h1 bs e.symm
    · exact (g bs).1 hd, fun hb => by
    rcases h _ hb with e | ⟨d, hd, g⟩
    · exact h2 bs e.symm
    · exact (g bs).2 hd⟩

mutual
theorem returns_granted (t : Target) (mode : BuildMode) (size : Nat) : (h : Header) →
    Returns t (de t mode size h) (Granted t size)
  | .unit => by rw [de]; exact Returns.done_ok (.leaf (by simp [parts]) nofun nofun)
  | .optional h => by
    rw [de]
    refine Returns.any.bind fun b _ => ?_
    split
    · exact (returns_granted t mode size h).wrap _ fun c hc => .of_parts (fun x hx => by
        simp only [parts, List.mem_cons] at hx
        exact hx.imp id fun hx => ⟨c, hx, hc⟩) nofun nofun
    · exact Returns.done_ok (.leaf (by simp [parts]) nofun nofun)
  | .boolean => by rw [de]; exact Returns.any.wrap _ fun v _ => .leaf (by simp [parts]) nofun nofun
  | .uint8 => by rw [de]; exact Returns.any.wrap _ fun v _ => .leaf (by simp [parts]) nofun nofun
  | .uint16 => by rw [de]; exact Returns.any.wrap _ fun v _ => .leaf (by simp [parts]) nofun nofun
  | .uint32 => by rw [de]; exact Returns.any.wrap _ fun v _ => .leaf (by simp [parts]) nofun nofun
  | .uint64 => by rw [de]; exact Returns.any.wrap _ fun v _ => .leaf (by simp [parts]) nofun nofun
  | .int8 => by rw [de]; exact Returns.any.wrap _ fun v _ => .leaf (by simp [parts]) nofun nofun
  | .int16 => by rw [de]; exact Returns.any.wrap _ fun v _ => .leaf (by simp [parts]) nofun nofun
  | .int32 => by rw [de]; exact Returns.any.wrap _ fun v _ => .leaf (by simp [parts]) nofun nofun
  | .int64 => by rw [de]; exact Returns.any.wrap _ fun v _ => .leaf (by simp [parts]) nofun nofun
  | .float32 => by rw [de]; exact Returns.any.wrap _ fun v _ => .leaf (by simp [parts]) nofun nofun
  | .float64 => by rw [de]; exact Returns.any.wrap _ fun v _ => .leaf (by simp [parts]) nofun nofun
  | .bigUInt => by rw [de]; exact Returns.any.wrap _ fun v _ => .leaf (by simp [parts]) nofun nofun
  | .bigInt => by rw [de]; exact Returns.any.wrap _ fun v _ => .leaf (by simp [parts]) nofun nofun
  | .bigDecimal => by rw [de]; exact Returns.any.wrap _ fun v _ => .leaf (by simp [parts]) nofun nofun
  | .string => by rw [de]; exact Returns.any.wrap _ fun v _ => .leaf (by simp [parts]) nofun nofun
  | .binary => by rw [de]; exact Returns.any.wrap _ fun v _ => .leaf (by simp [parts]) nofun nofun
  | .array h => by
    rw [de]
    refine Returns.any.bind fun len _ => Returns.alloc fun hal => ?_
    refine ((returns_granted t mode size h).times _).wrap _ fun bs hbs => .of_parts (fun x hx => by
      simp only [parts, List.mem_cons, mem_partsAll] at hx
      exact hx.imp id fun ⟨c, hc, hx⟩ => ⟨c, hx, hbs.2 c hc⟩) (fun cs e => ?_) nofun
    cases e
    rw [hbs.1, UInt64.ofNat_toNat]
    exact hal
  | .tuple hs => by
    rw [de]
    refine Returns.alloc fun hal => (returns_granted_all t mode size hs).wrap _ fun bs hbs =>
      .of_parts (fun x hx => by
        simp only [parts, List.mem_cons, mem_partsAll] at hx
        exact hx.imp id fun ⟨c, hc, hx⟩ => ⟨c, hx, hbs.2 c hc⟩) nofun (fun cs e => ?_)
    cases e
    rw [← hbs.1]
    exact hal
  | .map h => by
    rw [de]
    refine Returns.any.bind fun len _ => (returns_insertLoop (returns_granted t mode size h) _ []
      (by simp) List.Pairwise.nil).wrap _ fun m hm => .of_parts (fun x hx => by
        simp only [parts, List.mem_cons, mem_partsEntries] at hx
        exact hx.imp id fun ⟨c, hc, hx⟩ => ⟨c.2, hx, hm.1 c hc⟩) nofun nofun
  | .enum hs => by
    rw [de]
    refine Returns.any.bind fun i _ => (returns_granted_nth t mode size hs i.toNat).wrap _
      fun b hb => .of_parts (fun x hx => by
        simp only [parts, List.mem_cons] at hx
        exact hx.imp id fun hx => ⟨b, hx, hb⟩) nofun nofun
  | .date => by rw [de]; exact Returns.any.wrap _ fun v _ => .leaf (by simp [parts]) nofun nofun
  | .dateTime => by rw [de]; exact Returns.any.wrap _ fun v _ => .leaf (by simp [parts]) nofun nofun
theorem returns_granted_all (t : Target) (mode : BuildMode) (size : Nat) : (hs : List Header) →
    Returns t (deAll t mode size hs) fun bs => hs.length = bs.length ∧ ∀ b ∈ bs, Granted t size b
  | [] => by rw [deAll]; exact Returns.done_ok (by simp)
  | h :: hs => by
    rw [deAll]
    refine (returns_granted t mode size h).bind fun b hb =>
      (returns_granted_all t mode size hs).wrap _ fun bs hbs => ⟨by simp [hbs.1], fun c hc => ?_⟩
    rcases List.mem_cons.mp hc with rfl | hc
    · exact hb
    · exact hbs.2 c hc
theorem returns_granted_nth (t : Target) (mode : BuildMode) (size : Nat) : (hs : List Header) →
    (n : Nat) → Returns t (deNth t mode size n hs) (Granted t size)
  | [], n => by rw [deNth]; exact Returns.done_err
  | h :: hs, 0 => by rw [deNth]; exact returns_granted t mode size h
  | h :: hs, n + 1 => by rw [deNth]; exact returns_granted_nth t mode size hs n
end

/-- If the lengths are lengths on the target. -/
theorem Granted.fit {t : Target} {size : Nat} {b : Body} (h : Granted t size b) (he : Exists t b) :
    VectorsFit t size b := by
  rintro bs (hb | hb)
  · have h1 : bs.length < 2 ^ t.ptr.bits := (he _ hb).1
    have h2 := (h bs).1 hb
    have h3 : bs.length < 2 ^ 64 := lt_64_of_lt_bits h1
    rwa [Target.asUsize, UInt64.toNat_ofNat_of_lt' h3, Nat.mod_eq_of_lt h1] at h2
  · exact (h bs).2 hb

end Dlhn.Body
