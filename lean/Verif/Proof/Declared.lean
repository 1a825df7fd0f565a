import Verif.Proof.Ser
import Verif.Proof.Visit
namespace Dlhn
open Spec De PrefixVarint

/-! # Sequences and maps whose declared length is not the number of elements -/

/-- Reading some known values and then more of them. -/
theorem exec_times_more (t : Target) (fin : Ending) {α : Type} (p : Prog DeErr α)
    (enc : α → List UInt8) (as : List α) (k : Nat) (rest : List UInt8)
    (h : ∀ a ∈ as, ∀ r, Prog.exec t fin p (enc a ++ r) = .ok (a, r)) :
    Prog.exec t fin (times (as.length + k) p) (as.flatMap enc ++ rest)
      = (Prog.exec t fin (times k p) rest).map fun (bs, r) => (as ++ bs, r) := by
  induction as with
  | nil =>
    simp only [List.length_nil, Nat.zero_add, List.flatMap_nil, List.nil_append]
    cases Prog.exec t fin (times k p) rest <;> rfl
  | cons a as ih =>
    rw [List.length_cons, Nat.add_right_comm, times, List.flatMap_cons, List.append_assoc,
      Prog.bind_eq, Prog.exec_bind, h a List.mem_cons_self, Prog.next_ok, Prog.bind_eq,
      Prog.exec_bind, ih fun b hb => h b (List.mem_cons_of_mem _ hb)]
    cases Prog.exec t fin (times k p) rest <;> rfl

theorem exec_times_take (t : Target) (fin : Ending) {α : Type} (p : Prog DeErr α)
    (enc : α → List UInt8) (as : List α) (n : Nat) (hn : n ≤ as.length) (rest : List UInt8)
    (h : ∀ a ∈ as, ∀ r, Prog.exec t fin p (enc a ++ r) = .ok (a, r)) :
    Prog.exec t fin (times n p) (as.flatMap enc ++ rest)
      = .ok (as.take n, (as.drop n).flatMap enc ++ rest) := by
  have := exec_times_more t fin p enc (as.take n) 0 ((as.drop n).flatMap enc ++ rest)
    fun a ha => h a (List.mem_of_mem_take ha)
  rw [List.length_take, Nat.min_eq_left hn, ← List.append_assoc, ← List.flatMap_append,
    List.take_append_drop] at this
  rw [Nat.add_zero] at this
  rw [this]
  simp [times, Prog.pure_eq, Prog.exec, Outcome.map]

/-- A sequence as read after a given count. -/
theorem exec_seq_count (t : Target) (fin : Ending) (ty : Ty) (n : Nat) (hn : n < 2 ^ t.ptr.bits)
    (rest : List UInt8) :
    Prog.exec t fin (de t (.seq ty)) (varint 64 n ++ rest)
      = (Prog.exec t fin (times n (de t ty)) rest).map
          fun (vs, r) => (.seq (some vs.length) vs, r) := by
  rw [de, Prog.bind_eq, Prog.exec_bind, exec_u64_varint t fin n (lt_64_of_lt_bits hn),
    Prog.next_ok, asUsize_ofNat hn, Prog.bind_eq, Prog.exec_bind]
  cases Prog.exec t fin (times n (de t ty)) rest <;> rfl

theorem exec_map_count (t : Target) (fin : Ending) (kt vt : Ty) (n : Nat)
    (hn : n < 2 ^ t.ptr.bits) (rest : List UInt8) :
    Prog.exec t fin (de t (.map kt vt)) (varint 64 n ++ rest)
      = (Prog.exec t fin (times n do
          let k ← de t kt
          let v ← de t vt
          pure (k, v)) rest).map fun (es, r) => (.map (some es.length) es, r) := by
  rw [de, Prog.bind_eq, Prog.exec_bind, exec_u64_varint t fin n (lt_64_of_lt_bits hn),
    Prog.next_ok, asUsize_ofNat hn, Prog.bind_eq, Prog.exec_bind]
  cases Prog.exec t fin (times n do
          let k ← de t kt
          let v ← de t vt
          pure (k, v)) rest <;> rfl

theorem exec_entry (t : Target) (hm : 4096 ≤ t.memLimit) (fin : Ending) (kt vt : Ty)
    (hk : Supported kt) (hs : Supported vt) (e : Val × Val) (h1 : Has t kt e.1) (h2 : Has t vt e.2)
    (rest : List UInt8) :
    Prog.exec t fin (do
        let k ← de t kt
        let v ← de t vt
        pure (k, v)) (wire e.1 ++ wire e.2 ++ rest) = .ok (e, rest) := by
  rw [List.append_assoc, Prog.bind_eq, Prog.exec_bind, de_wire t hm kt hk e.1 h1, Prog.next_ok,
    Prog.bind_eq, Prog.exec_bind, de_wire t hm vt hs e.2 h2, Prog.next_ok]
  rfl

/-- What a sequence with a declared length is written as. -/
theorem toVec_declared_seq (t : Target) (ty : Ty) (hs : Supported ty) (vs : List Val)
    (hv : ∀ v ∈ vs, Has t ty v) (n : Nat) (hn : n < 2 ^ 64) :
    (Ser.toVec (.seq (some n) vs)).1 = varint 64 n ++ vs.flatMap wire := by
  have h : AllSerializable vs ∧ AllFit vs := by
    clear hn
    induction vs with
    | nil => exact ⟨trivial, trivial⟩
    | cons v vs ih =>
      have h1 := has_ok t ty hs v (hv v List.mem_cons_self)
      have h2 := ih fun w hw => hv w (List.mem_cons_of_mem _ hw)
      exact ⟨⟨h1.1, h2.1⟩, h1.2, h2.2⟩
  rw [Ser.toVec, Ser.exec_ser (.seq (some n) vs) h.1 ⟨by rintro m ⟨⟩; exact hn, h.2⟩, wire,
    lengthPrefix, wireAll_eq, List.flatMap_def]

theorem toVec_declared_map (t : Target) (vt : Ty) (hs : Supported vt) (es : List (Val × Val))
    (hv : ∀ e ∈ es, Has t .string e.1 ∧ Has t vt e.2) (n : Nat) (hn : n < 2 ^ 64) :
    (Ser.toVec (.map (some n) es)).1
      = varint 64 n ++ es.flatMap fun e => wire e.1 ++ wire e.2 := by
  have h : EntriesSerializable es ∧ EntriesFit es := by
    clear hn
    induction es with
    | nil => exact ⟨trivial, trivial⟩
    | cons e es ih =>
      obtain ⟨k, v⟩ := e
      have hk := (hv (k, v) List.mem_cons_self).1
      have h0 := has_ok t .string trivial k hk
      have h1 := has_ok t vt hs v (hv (k, v) List.mem_cons_self).2
      have h2 := ih fun w hw => hv w (List.mem_cons_of_mem _ hw)
      simp only [Has] at hk
      obtain ⟨s, rfl, -⟩ := hk
      exact ⟨⟨trivial, h1.1, h2.1⟩, h0.2, h1.2, h2.2⟩
  rw [Ser.toVec, Ser.exec_ser (.map (some n) es) h.1 ⟨by rintro m ⟨⟩; exact hn, h.2⟩, wire,
    lengthPrefix, wireEntries_eq, List.flatMap_def]

end Dlhn
