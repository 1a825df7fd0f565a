import Verif.Proof.DeHas
/-! # Exact behaviour of the string and byte-buffer decoders (64-bit targets) -/
namespace Dlhn.De

open PrefixVarint Spec

theorem varintDecode_lt {w : Nat} (hw : w = 16 ∨ w = 32 ∨ w = 64) {bs rest : List UInt8} {v : Nat}
    (h : varintDecode w bs = some (v, rest)) : v < 2 ^ w := by
  cases bs with
  | nil => simp [varintDecode] at h
  | cons b bs => exact (varintDecode_bound w hw b bs rest v h).1

theorem exec_deString {t : Target} (ht : t.ptr = .w64) (fin : Ending) (bs : List UInt8) :
    Prog.exec t fin (deString t) bs = match varintDecode 64 bs with
      | none => .err .read
      | some (n, body) =>
        if n ≤ body.length then
          match fromUtf8 (body.take n) with
          | some s => .ok (s, body.drop n)
          | none => .err .read
        else .err .read := by
  rw [deString, Prog.bind_eq, Prog.exec_bind, exec_u64]
  cases hd : varintDecode 64 bs with
  | none => rfl
  | some vr =>
    obtain ⟨n, body⟩ := vr
    have hn := varintDecode_lt (by simp) hd
    have hnat : (UInt64.ofNat n).toNat = n := by rw [UInt64.toNat_ofNat', Nat.mod_eq_of_lt hn]
    simp only [ofDec, Prog.next_ok]
    split
    · rw [Prog.bind_eq, Prog.exec_bind, exec_readBytes]
      simp only [hnat]
      by_cases hle : n ≤ body.length
      · rw [dif_pos hle, if_pos hle, Prog.next_ok, toList_takeVec, hnat]
        cases fromUtf8 (body.take n) <;> rfl
      · rw [dif_neg hle, if_neg hle]
        rfl
    · simp only [Prog.exec, hnat]
      by_cases hle : n ≤ body.length
      · rw [if_pos hle, if_pos hle]
        have : (body.take n).length = t.asUsize (UInt64.ofNat n) := by
          rw [asUsize_w64 ht, hnat, List.length_take]; omega
        cases fromUtf8 (body.take n) with
        | none => rfl
        | some s => simp only [this, ne_eq, not_true_eq_false, if_false]; rfl
      · rw [if_neg hle, if_neg hle]
        cases fin with
        | eof =>
          simp only
          have : body.length ≠ t.asUsize (UInt64.ofNat n) := by
            rw [asUsize_w64 ht, hnat]; omega
          cases fromUtf8 body with
          | none => rfl
          | some s => simp only [ne_eq, this, not_false_eq_true, if_true]; rfl
        | fail e => rfl

theorem exec_deByteBuf {t : Target} (ht : t.ptr = .w64) (hm : 4096 ≤ t.memLimit) (fin : Ending)
    (bs : List UInt8) :
    Prog.exec t fin (deByteBuf t) bs = match varintDecode 64 bs with
      | none => .err .read
      | some (n, body) =>
        if n ≤ body.length then .ok (body.take n, body.drop n) else .err .read := by
  rw [deByteBuf, Prog.bind_eq, Prog.exec_bind, exec_u64]
  cases hd : varintDecode 64 bs with
  | none => rfl
  | some vr =>
    obtain ⟨n, body⟩ := vr
    have hn := varintDecode_lt (by simp) hd
    have hnat : (UInt64.ofNat n).toNat = n := by rw [UInt64.toNat_ofNat', Nat.mod_eq_of_lt hn]
    simp only [ofDec, Prog.next_ok]
    split
    · rw [Prog.exec, allocate_ok hm (by omega), asUsize_w64 ht, hnat]
      have := exec_byteBufLoop t fin n (n + 1) [] body (by simp) (by simp)
      simpa using this
    · rename_i hle
      have hle' : n ≤ 4096 := by
        have : ¬ (4096 : UInt64).toNat < (UInt64.ofNat n).toNat := hle
        rw [hnat] at this
        exact Nat.not_lt.mp this
      rw [Prog.exec, hnat, allocate_ok hm hle']
      simp only
      rw [Prog.bind_eq, Prog.exec_bind, exec_readBytes]
      by_cases h : n ≤ body.length
      · rw [dif_pos h, if_pos h, Prog.next_ok, toList_takeVec]
        rfl
      · rw [dif_neg h, if_neg h]
        rfl

theorem exec_map (t : Target) (fin : Ending) {α β : Type} (p : Prog DeErr α) (f : α → β)
    (bs : List UInt8) : Prog.exec t fin (p >>= fun a => pure (f a)) bs
      = (Prog.exec t fin p bs).map fun (a, r) => (f a, r) := by
  rw [Prog.bind_eq, Prog.exec_bind]
  cases Prog.exec t fin p bs <;> rfl

/-! ## Variant indices -/

theorem dePayload_index (t : Target) (name : String) (i : UInt32) (vn : String) (vt : VTy) :
    Prog.Yields t (dePayload t name i vn vt) fun v _ => indexOf v = some i := by
  have any : ∀ {α : Type} (p : Prog DeErr α), Prog.Yields t p fun _ _ => True := by
    intro α p fin bs a rest h
    have hlen : ∀ (p : Prog DeErr α) bs, Prog.exec t fin p bs = .ok (a, rest) →
        rest.length ≤ bs.length := by
      intro p
      induction p with
      | done o =>
        intro bs h
        cases o <;> simp [Prog.exec] at h
        rw [h.2]
        exact Nat.le_refl _
      | readExact n e k ih =>
        intro bs h
        simp only [Prog.exec] at h
        split at h
        · have := ih _ _ h; rw [List.length_drop] at this; omega
        · simp at h
      | takeToEnd n e k ih =>
        intro bs h
        simp only [Prog.exec] at h
        split at h
        · have := ih _ _ h; rw [List.length_drop] at this; omega
        · cases fin
          · have := ih _ _ h; rw [List.length_nil] at this; omega
          · simp at h
      | alloc n k ih =>
        intro bs h
        simp only [Prog.exec] at h
        split at h
        · simp at h
        · exact ih _ h
    exact ⟨bs.length - rest.length, by have := hlen p bs h; omega, trivial⟩
  cases vt with
  | unit => rw [dePayload]; exact Prog.Yields.done_ok rfl
  | newtype ty => rw [dePayload]; exact yields_wrap (any _) _ fun _ _ _ => rfl
  | tuple ts => rw [dePayload]; exact yields_wrap (any _) _ fun _ _ _ => rfl
  | struct fs => rw [dePayload]; exact yields_wrap (any _) _ fun _ _ _ => rfl

theorem deVariant_index (t : Target) (name : String) (i : UInt16) (j : Nat)
    (vs : List (String × VTy)) :
    Prog.Yields t (deVariant t name i j vs) fun v _ => indexOf v = some i.toUInt32 := by
  induction vs generalizing j with
  | nil => rw [deVariant]; exact Prog.Yields.done_err
  | cons x vs ih =>
    obtain ⟨vn, vt⟩ := x
    cases j with
    | zero => rw [deVariant]; exact dePayload_index t name _ vn vt
    | succ j => rw [deVariant]; exact ih j

/-- A 32-bit variant index of at least 2^14 is never read back as itself. -/
theorem u16_of_varint32 (i : Nat) (hi : i < 2 ^ 32) (h : 16384 ≤ i) (rest : List UInt8) (j : Nat)
    (r : List UInt8) (hd : varintDecode 16 (varint 32 i ++ rest) = some (j, r)) : j ≠ i := by
  intro hj
  subst hj
  have hj16 : j < 2 ^ 16 := varintDecode_lt (by simp) hd
  -- three groups: the first byte has two leading ones
  have hg : groups j = 3 := groups_eq 2 j (by omega) (by omega)
  have hl : Spec.leadingOnes (UInt8.ofNat (256 - 2 ^ (9 - 3) + j % 2 ^ (8 - 3))) = 2 := by
    refine leadingOnes_char _ 2 (by omega) ?_ ?_
    · rw [UInt8.toNat_ofNat']; omega
    · intro _; rw [UInt8.toNat_ofNat']; omega
  rw [varint, hg] at hd
  simp only [Nat.reduceDiv, Nat.reduceLeDiff, if_true, List.cons_append, varintDecode, extraBytes,
    hl, Nat.min_self, Nat.lt_irrefl, if_false] at hd
  rw [if_neg (by simp)] at hd
  simp only [Option.some.injEq, Prod.mk.injEq] at hd
  have h1 := hd.1
  rw [List.take_append_of_le_length (by simp), List.take_of_length_le (by simp), leValue_leBytes] at h1
  omega

end Dlhn.De
