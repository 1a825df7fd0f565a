import Verif.Spec.Cost
import Verif.Proof.Visit
import Verif.Proof.Rec
import Verif.Proof.DeriveDeGen
import Verif.Proof.Header
/-! # What decoding costs -/
namespace Dlhn

open PrefixVarint Spec

namespace Prog

variable {ε ε' α β : Type}

/-! ## Reader calls -/

/-- Every call is paid for: a byte read earns two units, a call costs one. The
program starts with `c` units and has `d` left when it succeeds. -/
def Pays : Nat → Nat → Prog ε α → Prop
  | c, d, done (.ok _) => d ≤ c
  | _, _, done _ => True
  | c, d, readExact n _ k => 1 ≤ c + 2 * n ∧ ∀ v, Pays (c + 2 * n - 1) d (k v)
  | c, d, takeToEnd _ _ k => ∀ v, 1 ≤ c + 2 * v.length ∧ Pays (c + 2 * v.length - 1) d (k v)
  | c, d, alloc _ k => Pays c d k

theorem Pays.mono {p : Prog ε α} {c d c' d' : Nat} (h : Pays c d p) (hc : c ≤ c') (hd : d' ≤ d) :
    Pays c' d' p := by
  induction p generalizing c c' with
  | done o =>
    cases o with
    | ok a => simp only [Pays] at h ⊢; omega
    | err e => trivial
    | panic q => trivial
  | readExact n g k ih => exact ⟨by have := h.1; omega, fun v => ih v (h.2 v) (by omega)⟩
  | takeToEnd n g k ih =>
    exact fun v => ⟨by have := (h v).1; omega, ih v (h v).2 (by omega)⟩
  | alloc n k ih => exact ih (c := c) h hc

theorem Pays.bind {p : Prog ε α} {f : α → Prog ε β} {c d e : Nat} (hp : Pays c d p)
    (hf : ∀ a, Pays d e (f a)) : Pays c e (Prog.bind p f) := by
  induction p generalizing c with
  | done o =>
    cases o with
    | ok a => exact (hf a).mono hp (Nat.le_refl _)
    | err e => trivial
    | panic q => trivial
  | readExact n g k ih => exact ⟨hp.1, fun v => ih v (hp.2 v)⟩
  | takeToEnd n g k ih => exact fun v => ⟨(hp v).1, ih v (hp v).2⟩
  | alloc n k ih => exact ih (c := c) hp

theorem Pays.mapErr {p : Prog ε α} {c d : Nat} (f : ε → ε') (hp : Pays c d p) :
    Pays c d (Prog.mapErr f p) := by
  induction p generalizing c with
  | done o => cases o <;> exact hp
  | readExact n g k ih => exact ⟨hp.1, fun v => ih v (hp.2 v)⟩
  | takeToEnd n g k ih => exact fun v => ⟨(hp v).1, ih v (hp v).2⟩
  | alloc n k ih => exact ih (c := c) hp

theorem Pays.calls {p : Prog ε α} {c d : Nat} (h : Pays c d p) (t : Target) (fin : Ending)
    (bs : List UInt8) : Prog.calls t fin p bs ≤ 2 * bs.length + c + 1 ∧
      ∀ a r, Prog.exec t fin p bs = .ok (a, r) →
        Prog.calls t fin p bs + 2 * r.length + d ≤ 2 * bs.length + c := by
  induction p generalizing c bs with
  | done o =>
    refine ⟨by simp [Prog.calls], fun a r hx => ?_⟩
    cases o with
    | ok b =>
      simp only [Prog.exec, Outcome.ok.injEq, Prod.mk.injEq] at hx
      obtain ⟨rfl, rfl⟩ := hx
      simp only [Pays] at h
      simp only [Prog.calls]; omega
    | err e => simp [Prog.exec] at hx
    | panic q => simp [Prog.exec] at hx
  | readExact n g k ih =>
    obtain ⟨h1, h2⟩ := h
    simp only [Prog.calls, Prog.exec]
    by_cases hn : n ≤ bs.length
    · simp only [hn, dite_true]
      obtain ⟨i1, i2⟩ := ih (takeVec bs hn) (h2 _) (bs.drop n)
      rw [List.length_drop] at i1 i2
      refine ⟨by omega, fun a r hx => ?_⟩
      have := i2 a r hx
      omega
    · simp only [hn, dite_false]
      exact ⟨by omega, fun a r hx => by simp at hx⟩
  | takeToEnd n g k ih =>
    simp only [Prog.calls, Prog.exec]
    by_cases hn : n ≤ bs.length
    · simp only [hn, if_true]
      obtain ⟨h1, h2⟩ := h (bs.take n)
      obtain ⟨i1, i2⟩ := ih _ h2 (bs.drop n)
      rw [List.length_take, Nat.min_eq_left hn] at h1
      rw [List.length_take, Nat.min_eq_left hn, List.length_drop] at i1 i2
      refine ⟨by omega, fun a r hx => ?_⟩
      have := i2 a r hx
      omega
    · simp only [hn, if_false]
      cases fin with
      | fail e => exact ⟨by simp, fun a r hx => by simp at hx⟩
      | eof =>
        obtain ⟨h1, h2⟩ := h bs
        obtain ⟨i1, i2⟩ := ih _ h2 []
        simp only [List.length_nil] at i1 i2
        refine ⟨by simp only; omega, fun a r hx => ?_⟩
        have := i2 a r hx
        simp only
        omega
  | alloc n k ih =>
    simp only [Prog.calls, Prog.exec]
    cases t.allocate n with
    | some q => exact ⟨by simp, fun a r hx => by simp at hx⟩
    | none => exact ih (c := c) h bs

/-! ## Memory -/

/-- The explicit allocations of a run amount to no more than the data it has read,
but for one more of at most 4096 bytes if it does not succeed. -/
def Thrifty (t : Target) (p : Prog ε α) : Prop :=
  ∀ fin bs, (requests t fin p bs).sum ≤ bs.length + 4096 ∧
    ∀ a r, Prog.exec t fin p bs = .ok (a, r) →
      (requests t fin p bs).sum + r.length ≤ bs.length

theorem Thrifty.bind {t : Target} {p : Prog ε α} {f : α → Prog ε β} (hp : Thrifty t p)
    (hf : ∀ a, Thrifty t (f a)) : Thrifty t (Prog.bind p f) := by
  intro fin bs
  rw [requests_bind, exec_bind]
  obtain ⟨h1, h2⟩ := hp fin bs
  cases hx : Prog.exec t fin p bs with
  | ok ar =>
    obtain ⟨a, r⟩ := ar
    have := h2 a r hx
    obtain ⟨i1, i2⟩ := hf a fin r
    simp only [next_ok, List.sum_append]
    refine ⟨by omega, fun b r' hy => ?_⟩
    have := i2 b r' hy
    omega
  | err e => exact ⟨by simpa using h1, fun a r h => by simp at h⟩
  | panic q => exact ⟨by simpa using h1, fun a r h => by simp at h⟩

theorem NoAlloc.thrifty {t : Target} {p : Prog ε α} (h : NoAlloc p) : Thrifty t p := by
  intro fin bs
  rw [h.requests]
  refine ⟨by simp, fun a r hx => ?_⟩
  have := Rec.exec_length t fin p bs a r hx
  simpa using this

theorem NoAlloc.mapErr {p : Prog ε α} (f : ε → ε') (h : NoAlloc p) : NoAlloc (Prog.mapErr f p) := by
  induction p with
  | done o => trivial
  | readExact n g k ih => exact fun v => ih v (h v)
  | takeToEnd n g k ih => exact fun v => ih v (h v)
  | alloc n k ih => exact h.elim

/-- An allocation that what follows fills. -/
theorem Thrifty.alloc {t : Target} {n : Nat} {k : Prog ε α} (hn : n ≤ 4096) (hk : NoAlloc k)
    (hy : Yields t k fun _ m => n ≤ m) : Thrifty t (.alloc n k) := by
  intro fin bs
  simp only [Prog.requests, Prog.exec]
  cases t.allocate n with
  | some q => exact ⟨by simp; omega, fun a r h => by simp at h⟩
  | none =>
    simp only [hk.requests]
    refine ⟨by simp; omega, fun a r hx => ?_⟩
    obtain ⟨m, h1, h2⟩ := hy fin bs a r hx
    simp; omega

end Prog

namespace De

open Prog (Pays Thrifty NoAlloc)

section
attribute [local irreducible] PrefixVarint.leadingOnes

theorem pays_prefix : Pays 0 1 decodePrefix := ⟨by omega, fun _ => by simp [Pays, Prog.pure_eq]⟩

theorem pays_u16 : Pays 0 1 decodeU16 := by
  refine pays_prefix.bind fun p => ?_
  split <;> simp [Pays]
theorem pays_u32 : Pays 0 1 decodeU32 := by
  refine pays_prefix.bind fun p => ?_
  split <;> simp [Pays]
theorem pays_u64 : Pays 0 1 decodeU64 := by
  refine pays_prefix.bind fun p => ?_
  split <;> simp [Pays]

theorem noAlloc_u16 : NoAlloc decodeU16 := by
  refine NoAlloc.bind (p := decodePrefix) (fun _ => trivial) fun p => ?_
  split <;> simp [NoAlloc]
theorem noAlloc_u32 : NoAlloc decodeU32 := by
  refine NoAlloc.bind (p := decodePrefix) (fun _ => trivial) fun p => ?_
  split <;> simp [NoAlloc]
theorem noAlloc_u64 : NoAlloc decodeU64 := by
  refine NoAlloc.bind (p := decodePrefix) (fun _ => trivial) fun p => ?_
  split <;> simp [NoAlloc]
end

theorem pays_string (t : Target) : Pays 0 0 (deString t) := by
  refine (pays_u64.mapErr orRead).bind fun len => ?_
  split
  · refine Pays.bind (d := 0) ⟨by omega, fun _ => by simp [Pays]⟩ fun v => ?_
    split <;> simp [Pays]
  · intro v
    refine ⟨by omega, ?_⟩
    dsimp only
    split
    · trivial
    · split <;> simp [Pays]

theorem pays_loop (len lim fuel : Nat) (result : List UInt8) (pos : Nat)
    (hpos : pos = result.length) (hl : lim ≤ len) :
    Pays 0 0 (byteBufLoop len lim fuel result pos) := by
  induction fuel generalizing result pos with
  | zero => trivial
  | succ fuel ih =>
    rw [byteBufLoop]
    split
    · refine Pays.bind (d := 0) ⟨by omega, fun _ => by simp [Pays]⟩ fun v => ih _ _ ?_
      simp [hpos]
    · simp [Pays]

theorem pays_byteBuf (t : Target) : Pays 0 0 (deByteBuf t) := by
  refine (pays_u64.mapErr orRead).bind fun len => ?_
  split
  · exact (pays_loop _ _ _ _ _ rfl (asUsize_le t len)).mono (by omega) (by omega)
  · refine Pays.bind (d := 0) ⟨by omega, fun _ => by simp [Pays]⟩ fun v => ?_
    simp [Pays]

theorem closed_pays (t : Target) : Closed t (fun {_} p => Pays 0 0 p) where
  ok _ := by simp [Pays]
  err _ := trivial
  bind hp hf := Pays.bind hp hf
  read n hn := ⟨by omega, fun _ => by simp [Pays]⟩
  u16 := (pays_u16.mapErr orRead).mono (Nat.le_refl _) (Nat.zero_le _)
  u32 := (pays_u32.mapErr orRead).mono (Nat.le_refl _) (Nat.zero_le _)
  u64 := (pays_u64.mapErr orRead).mono (Nat.le_refl _) (Nat.zero_le _)
  string := pays_string t
  byteBuf := pays_byteBuf t

theorem noAlloc_string (t : Target) : NoAlloc (deString t) := by
  refine (noAlloc_u64.mapErr orRead).bind fun len => ?_
  split
  · refine NoAlloc.bind (p := readBytes _) (fun _ => trivial) fun v => ?_
    split <;> trivial
  · intro v
    dsimp only
    split
    · trivial
    · split <;> trivial

theorem noAlloc_loop (len lim fuel : Nat) (result : List UInt8) (pos : Nat) :
    NoAlloc (byteBufLoop len lim fuel result pos) := by
  induction fuel generalizing result pos with
  | zero => trivial
  | succ fuel ih =>
    rw [byteBufLoop]
    split
    · exact NoAlloc.bind (p := readBytes _) (fun _ => trivial) fun v => ih _ _
    · trivial

theorem thrifty_byteBuf {t : Target} (h : t.ptr = .w64) : Thrifty t (deByteBuf t) := by
  refine (noAlloc_u64.mapErr orRead).thrifty.bind fun len => ?_
  split
  · rename_i hlen
    refine Thrifty.alloc (Nat.le_refl _) (noAlloc_loop _ _ _ _ _) ?_
    rw [asUsize_w64 h]
    intro fin bs a r hx
    have := exec_byteBufLoop t fin len.toNat (len.toNat + 1) [] bs (by simp) (by simp)
    have h4 : 4096 < len.toNat := hlen
    simp only [List.length_nil, Nat.sub_zero, List.nil_append] at this
    rw [this] at hx
    split at hx
    · simp only [Outcome.ok.injEq, Prod.mk.injEq] at hx
      obtain ⟨rfl, rfl⟩ := hx
      rw [List.length_drop]
      exact ⟨len.toNat, by omega, by omega⟩
    · simp at hx
  · rename_i hlen
    have h4 : ¬ 4096 < len.toNat := hlen
    refine Thrifty.alloc (by omega) (NoAlloc.bind (p := readBytes _) (fun _ => trivial)
      fun v => trivial) ?_
    refine Prog.Yields.bind (Q := fun _ m => len.toNat ≤ m) (Prog.Yields.readExact fun v =>
      Prog.Yields.done_ok (by omega)) fun v m hm => Prog.Yields.done_ok (by omega)

theorem closed_thrifty {t : Target} (h : t.ptr = .w64) : Closed t (fun {_} p => Thrifty t p) where
  ok _ := NoAlloc.thrifty trivial
  err _ := NoAlloc.thrifty trivial
  bind hp hf := Thrifty.bind hp hf
  read n _ := NoAlloc.thrifty (p := readBytes n) (fun _ => trivial)
  u16 := (noAlloc_u16.mapErr orRead).thrifty
  u32 := (noAlloc_u32.mapErr orRead).thrifty
  u64 := (noAlloc_u64.mapErr orRead).thrifty
  string := (noAlloc_string t).thrifty
  byteBuf := thrifty_byteBuf h

end De

namespace Header

open Prog (Pays)

theorem pays_replicateM {ε α : Type} {p : Prog ε α} (h : Pays 0 0 p) (n : Nat) :
    Pays 0 0 (replicateM n p) := by
  induction n with
  | zero => simp [replicateM, Pays]
  | succ n ih =>
    rw [replicateM]
    exact Pays.bind h fun a => Pays.bind ih fun as => by simp [Pays]

theorem pays_deserialize (size : Nat) (d : Nat) : Pays 0 0 (deserialize size d) := by
  induction d with
  | zero => trivial
  | succ d ih =>
    have hone : ∀ f : Header → Header, Pays 1 0 (deserialize size d >>= fun i => pure (f i)) :=
      fun f =>
      (Pays.bind (e := 0) ih fun i => by simp [Pays]).mono (Nat.zero_le _) (Nat.le_refl _)
    have hmany : ∀ f : List Header → Header, Pays 1 0 (decodeU16 >>= fun n =>
        Prog.alloc (n.toNat * size) (replicateM n.toNat (deserialize size d) >>= fun v =>
          pure (f v))) := by
      intro f
      have hin : ∀ n : UInt16, Pays 0 0 (Prog.alloc (n.toNat * size)
          (replicateM n.toNat (deserialize size d) >>= fun v => pure (f v))) := fun n =>
        Pays.bind (d := 0) (pays_replicateM ih _) fun v => by simp [Pays]
      exact Pays.bind (De.pays_u16.mono (Nat.zero_le _) (Nat.zero_le _)) hin
    rw [deserialize_succ]
    refine ⟨by omega, fun v => ?_⟩
    simp only
    cases kind v[0] with
    | scalar h => simp [after, Pays]
    | optional => exact hone _
    | array => exact hone _
    | map => exact hone _
    | tuple => exact hmany _
    | enum => exact hmany _
    | bad => trivial

end Header
end Dlhn
