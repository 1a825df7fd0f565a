import Verif.Spec.DeriveGrammar
import Verif.Proof.BodyGrammar
import Verif.Proof.DeriveYield
/-! # `T::deserialize` of Rust types accepts exactly the grammar -/
namespace Dlhn

namespace Derive

open Spec hiding variantFields
open Dlhn.De (Parses)

/-! ## Hash maps -/

theorem keys_hashInsert {α : Type} (k : String) (v : α) (m : List (String × α)) :
    (hashInsert k v m).map Prod.fst =
      if k ∈ m.map Prod.fst then m.map Prod.fst else m.map Prod.fst ++ [k] := by
  induction m with
  | nil => rfl
  | cons e m ih =>
    obtain ⟨k', v'⟩ := e
    rw [hashInsert]
    by_cases h : k = k'
    · subst h; simp
    · rw [if_neg h, List.map_cons, ih]
      by_cases h' : k ∈ m.map Prod.fst
      · simp only [h', if_true, List.map_cons, List.mem_cons, or_true]
      · simp only [h', if_false, List.map_cons, List.mem_cons, or_false, h, List.cons_append]

theorem collectHash_append {α : Type} (es : List (String × α)) (e : String × α) :
    collectHash (es ++ [e]) = hashInsert e.1 e.2 (collectHash es) := by
  simp [collectHash, List.foldl_append]

theorem gathered_collectHash {α : Type} (es : List (String × α)) : Gathered es (collectHash es) := by
  have key : ∀ rs : List (String × α), Gathered rs.reverse (collectHash rs.reverse) := by
    intro rs
    induction rs with
    | nil => exact ⟨rfl, fun e he => by simp [collectHash] at he⟩
    | cons e rs ih =>
      rw [List.reverse_cons, collectHash_append]
      generalize rs.reverse = es at ih
      refine ⟨?_, ?_⟩
      · rw [keys_hashInsert, ih.1, List.map_append, List.eraseDups_append]
        by_cases h : e.1 ∈ es.map Prod.fst
        · rw [if_pos (List.mem_eraseDups.mpr h)]
          have : ([e].map Prod.fst).removeAll (es.map Prod.fst) = [] := by
            rw [List.removeAll, List.filter_eq_nil_iff]
            intro a ha
            simp only [List.map_cons, List.map_nil, List.mem_singleton] at ha
            subst ha
            simpa using h
          rw [this]; simp
        · rw [if_neg (fun hc => h (List.mem_eraseDups.mp hc))]
          have : ([e].map Prod.fst).removeAll (es.map Prod.fst) = [e.1] := by
            rw [List.removeAll, List.filter_eq_self.mpr]
            · rfl
            · intro a ha
              simp only [List.map_cons, List.map_nil, List.mem_singleton] at ha
              subst ha
              simpa using h
          rw [this]; rfl
      · intro f hf
        rcases (mem_hashInsert (collectHash_distinct es) _ _ f).mp hf with rfl | ⟨hne, hf⟩
        · exact ⟨es, [], rfl, by simp⟩
        · obtain ⟨b, a, rfl, h⟩ := ih.2 f hf
          refine ⟨b, a ++ [e], by simp, fun x hx => ?_⟩
          rcases List.mem_append.mp hx with hx | hx
          · exact h x hx
          · rw [List.mem_singleton.mp hx]; exact fun hc => hne hc.symm
  have := key es.reverse
  rwa [List.reverse_reverse] at this

/-- The last entry of a key is one. -/
theorem last_unique {α : Type} {b b' a a' : List (String × α)} {e e' : String × α}
    (h : b ++ e :: a = b' ++ e' :: a') (hk : e.1 = e'.1) (ha : ∀ x ∈ a, x.1 ≠ e.1)
    (ha' : ∀ x ∈ a', x.1 ≠ e'.1) : e = e' := by
  rcases List.append_eq_append_iff.mp h with ⟨c, rfl, h1⟩ | ⟨c, rfl, h1⟩
  · cases c with
    | nil => simp only [List.nil_append, List.cons.injEq] at h1; exact h1.1
    | cons x c =>
      simp only [List.cons_append, List.cons.injEq] at h1
      exact (ha e' (by rw [h1.2]; simp) hk.symm).elim
  · cases c with
    | nil => simp only [List.nil_append, List.cons.injEq] at h1; exact h1.1.symm
    | cons x c =>
      simp only [List.cons_append, List.cons.injEq] at h1
      exact (ha' e (by rw [h1.2]; simp) hk).elim

theorem gathered_iff {α : Type} (es m : List (String × α)) : Gathered es m ↔ m = collectHash es := by
  refine ⟨fun h => ?_, fun h => h ▸ gathered_collectHash es⟩
  have h' := gathered_collectHash es
  generalize collectHash es = m' at h'
  have hk : m.map Prod.fst = m'.map Prod.fst := h.1.trans h'.1.symm
  have ha := h.2
  have ha' := h'.2
  clear h h'
  induction m generalizing m' with
  | nil => cases m' with
    | nil => rfl
    | cons e m' => simp at hk
  | cons e m ih => cases m' with
    | nil => simp at hk
    | cons e' m' =>
      simp only [List.map_cons, List.cons.injEq] at hk
      obtain ⟨b, a, h1, h2⟩ := ha e List.mem_cons_self
      obtain ⟨b', a', h1', h2'⟩ := ha' e' List.mem_cons_self
      rw [last_unique (h1.symm.trans h1') hk.1 h2 h2',
        ih m' hk.2 (fun x hx => ha x (List.mem_cons_of_mem _ hx))
          fun x hx => ha' x (List.mem_cons_of_mem _ hx)]

theorem collected_eq {α : Type} (es m : List (String × α)) : Collected es m ↔ m = collectBTree es :=
  Body.collected_iff es m

/-! ## Entries, numbers, dates -/

variable {t : Target}

theorem parses_entries {α : Type} {p : Prog DeErr α} {R : α → List UInt8 → Prop}
    (ht : t.ptr = .w64) (hp : Parses t p R) (n : Nat) :
    Parses t (deEntries t p n) fun es u => es.length = n ∧
      Joined (fun e x => ∃ y z, x = y ++ z ∧ Prefixed (utf8 e.1) y ∧ R e.2 z) es u := by
  induction n with
  | zero =>
    rw [deEntries]
    refine (Parses.ret []).congr fun m u => ⟨?_, ?_⟩
    · rintro ⟨h1, h2⟩
      cases List.length_eq_zero_iff.mp h1
      exact ⟨rfl, h2⟩
    · rintro ⟨rfl, rfl⟩; exact ⟨rfl, rfl⟩
  | succ n ih =>
    rw [deEntries]
    refine ((Parses.string ht).bind fun k => hp.bind fun v =>
      ih.wrap fun es => (k, v) :: es).congr fun m u => ⟨?_, ?_⟩
    · rintro ⟨h1, h2⟩
      cases m with
      | nil => simp at h1
      | cons e es =>
        obtain ⟨x, w, rfl, ⟨y, z, rfl, h3, h4⟩, h5⟩ := h2
        exact ⟨e.1, y, z ++ w, by simp, h3, e.2, z, w, rfl, h4, es, rfl, by simpa using h1, h5⟩
    · rintro ⟨k, y, _, rfl, h3, v, z, w, rfl, h4, es, rfl, h1, h5⟩
      exact ⟨by simp [h1], y ++ z, w, by simp, ⟨y, z, rfl, h3, h4⟩, h5⟩

theorem parses_numDecimal (ht : t.ptr = .w64) : Parses t (Format.deBigDecimal t) fun v bs =>
    ∃ body l u, bs = l ++ u ∧ signedValue body = v.intVal ∧ Prefixed body l ∧
      ((v.intVal = 0 ∧ v.scale = 0 ∧ u = []) ∨
        (v.intVal ≠ 0 ∧ Number 64 (zigzag v.scale.toInt) u)) := by
  refine ((Parses.vecU8 ht).bind (S := fun d v u => signedValue d = v.intVal ∧
    ((v.intVal = 0 ∧ v.scale = 0 ∧ u = []) ∨
        (v.intVal ≠ 0 ∧ Number 64 (zigzag v.scale.toInt) u))) fun d => ?_).congr fun v u => ⟨?_, ?_⟩
  · simp only [Num.fromSignedBytesLe_eq]
    split
    · rename_i h
      refine (Parses.ret _).congr fun v u => ⟨?_, ?_⟩
      · rintro ⟨h1, ⟨h2, h3, h4⟩ | ⟨h2, -⟩⟩
        · obtain ⟨a, b⟩ := v
          simp only at h1 h3
          rw [h1, h3]
          exact ⟨rfl, h4⟩
        · exact (h2 (h1 ▸ h)).elim
      · rintro ⟨rfl, rfl⟩
        exact ⟨rfl, .inl ⟨h, rfl, rfl⟩⟩
    · rename_i h
      refine (Parses.i64.wrap _).congr fun v u => ⟨?_, ?_⟩
      · rintro ⟨h1, ⟨h2, -⟩ | ⟨-, h2⟩⟩
        · exact (h (h1.trans h2)).elim
        · obtain ⟨a, b⟩ := v
          simp only at h1 h2
          exact ⟨b, by rw [h1], h2⟩
      · rintro ⟨s, rfl, h2⟩
        exact ⟨rfl, .inr ⟨h, h2⟩⟩
  · rintro ⟨body, l, w, rfl, h1, h2, h3⟩; exact ⟨body, l, w, rfl, h2, h1, h3⟩
  · rintro ⟨body, l, w, rfl, h2, h1, h3⟩; exact ⟨body, l, w, rfl, h1, h2, h3⟩

theorem parses_timeDate (mode : BuildMode) : Parses t (Format.deDate mode) fun d bs =>
    d.Valid ∧ DateDenotes mode ⟨d.year, d.ordinal⟩ bs := by
  intro fin bs d rest
  rw [Format.exec_deDate_eq]
  constructor
  · intro h
    cases hx : Prog.exec t fin (Date.de mode) bs with
    | err e => rw [hx] at h; cases h
    | panic p => rw [hx] at h; cases h
    | ok a =>
      obtain ⟨c, r⟩ := a
      obtain ⟨u, hu, hd⟩ := (Parses.date mode fin bs c r).mp hx
      rw [hx, Prog.next_ok] at h
      cases hc : c.toTime with
      | none => rw [hc] at h; cases h
      | some d' =>
        rw [hc] at h
        cases h
        obtain ⟨rfl, hv⟩ := (fromOrdinalDate_eq_some _ _ _).mp hc
        exact ⟨u, hu, hv, hd⟩
  · rintro ⟨u, hu, hv, hd⟩
    rw [(Parses.date mode fin bs _ rest).mpr ⟨u, hu, hd⟩, Prog.next_ok]
    rw [Date.toTime, (fromOrdinalDate_eq_some _ _ ⟨d.year, d.ordinal⟩).mpr ⟨rfl, hv⟩]

theorem parses_dateTime : Parses t DateTime.de fun d bs => ∃ l u, bs = l ++ u ∧
      Number 64 (zigzag d.unixTimestamp.toInt) l ∧ Number 32 d.nanosecond.toNat u := by
  refine (Parses.i64.bind fun s => Parses.u32.wrap fun n => DateTime.mk s n).congr fun d u => ⟨?_, ?_⟩
  · rintro ⟨l, w, rfl, h1, h2⟩
    exact ⟨d.unixTimestamp, l, w, rfl, h1, d.nanosecond, rfl, h2⟩
  · rintro ⟨s, l, w, rfl, h1, n, rfl, h2⟩
    exact ⟨l, w, rfl, h1, h2⟩

theorem toTime_iff (s : Int64) (n : UInt32) (d : Time.OffsetDateTime) :
    DateTime.toTime ⟨s, n⟩ = .ok d ↔ firstSecond ≤ s.toInt ∧ s.toInt ≤ lastSecond ∧
      d.instant = s.toInt * 1000000000 + n.toNat ∧ d.nanos < 1000000000 ∧ d.offset = 0 ∧
      d.seconds ≤ lastSecond := by
  rw [DateTime.toTime]
  show (match Time.fromUnixTimestamp s with | none => _ | some v => _) = _ ↔ _
  by_cases hin : firstSecond ≤ s.toInt ∧ s.toInt ≤ lastSecond
  · rw [fromUnix_some hin.1 hin.2]
    simp only [addNanos_spec, hin.1, hin.2, true_and]
    obtain ⟨a, b, c⟩ := d
    simp only [Time.OffsetDateTime.instant]
    by_cases hlt : s.toInt * 1000000000 + n.toNat < (lastSecond + 1) * 1000000000
    · simp only [if_pos hlt, Outcome.ok.injEq, Time.OffsetDateTime.mk.injEq]
      constructor
      · rintro ⟨rfl, rfl, rfl⟩; refine ⟨by omega, by omega, rfl, by omega⟩
      · rintro ⟨h1, h2, h3, h4⟩; exact ⟨by omega, by omega, h3.symm⟩
    · simp only [if_neg hlt, reduceCtorEq, false_iff]
      rintro ⟨h1, h2, h3, h4⟩
      omega
  · rw [fromUnix_none (by omega)]
    simp only [reduceCtorEq, false_iff]
    rintro ⟨h1, h2, -⟩
    exact hin ⟨h1, h2⟩

theorem parses_offsetDateTime : Parses t Format.deDateTime fun d bs =>
    ∃ (s : Int64) (n : UInt32) (l u : List UInt8), bs = l ++ u ∧
      Number 64 (zigzag s.toInt) l ∧ Number 32 n.toNat u ∧
      firstSecond ≤ s.toInt ∧ s.toInt ≤ lastSecond ∧
      d.instant = s.toInt * 1000000000 + n.toNat ∧ d.nanos < 1000000000 ∧ d.offset = 0 ∧
      d.seconds ≤ lastSecond := by
  intro fin bs d rest
  rw [Format.exec_deDateTime_eq]
  constructor
  · intro h
    cases hx : Prog.exec t fin DateTime.de bs with
    | err e => rw [hx] at h; cases h
    | panic p => rw [hx] at h; cases h
    | ok a =>
      obtain ⟨c, r⟩ := a
      obtain ⟨u, hu, l, w, rfl, h1, h2⟩ := (parses_dateTime fin bs c r).mp hx
      rw [hx, Prog.next_ok] at h
      cases hc : c.toTime with
      | err e => rw [hc] at h; cases h
      | panic p => rw [hc] at h; cases h
      | ok d' =>
        rw [hc] at h
        cases h
        exact ⟨_, hu, c.unixTimestamp, c.nanosecond, l, w, rfl, h1, h2, (toTime_iff _ _ _).mp hc⟩
  · rintro ⟨_, hu, s, n, l, w, rfl, h1, h2, h3⟩
    rw [(parses_dateTime fin bs ⟨s, n⟩ rest).mpr ⟨_, hu, l, w, rfl, h1, h2⟩, Prog.next_ok,
      (toTime_iff s n d).mpr h3]

/-! ## Types -/

theorem parses_counted {α β : Type} {p : Nat → Prog DeErr α} {f : α → β} {R : Nat → α → List UInt8 → Prop}
    (ht : t.ptr = .w64) (hp : ∀ n, Parses t (p n) (R n)) :
    Parses t (De.deU64 >>= fun c => p (t.asUsize c) >>= fun a => pure (f a)) fun w bs =>
      ∃ n l u, bs = l ++ u ∧ Number 64 n l ∧ ∃ a, w = f a ∧ R n a u := by
  have h := Parses.countedFull (t := t) fun n => (hp n).wrap f
  have he : (De.deU64 >>= fun c => p (t.asUsize c) >>= fun a => pure (f a)) =
      (De.deU64 >>= fun c => p c.toNat >>= fun a => (pure (f a) : Prog DeErr β)) := by
    congr 1
    funext c
    rw [De.asUsize_w64 ht]
  rw [he]
  exact h

mutual
theorem parses_ty (ht : t.ptr = .w64) (hm : 4096 ≤ t.memLimit) (mode : BuildMode) (env : Env) :
    ∀ T : RTy, Parses t (deTy t mode env T) (TypeDenotes mode env T)
  | .unit => by
    rw [deTy]; exact (Parses.ret ()).congr fun v u => by rw [TypeDenotes]; simp
  | .option T => by
    rw [deTy]
    refine (Parses.bool.bind (S := fun b (v : Option (Carrier T)) u => if b then ∃ w, v = some w ∧
      TypeDenotes mode env T w u else v = none ∧ u = []) fun b => ?_).congr fun v u => ?_
    · cases b
      · exact (Parses.ret none).congr fun v u => by simp
      · exact ((parses_ty ht hm mode env T).wrap some).congr fun v u => by simp
    · cases v with
      | none =>
        rw [TypeDenotes]
        constructor
        · rintro rfl; exact ⟨false, [0], [], rfl, .inl ⟨rfl, rfl⟩, by simp⟩
        · rintro ⟨b, x, y, rfl, ⟨rfl, rfl⟩ | ⟨rfl, rfl⟩, h⟩
          · simp only [Bool.false_eq_true, if_false, true_and] at h
            rw [h]; rfl
          · simp only [if_true] at h
            obtain ⟨w, h, -⟩ := h
            cases h
      | some v =>
        rw [TypeDenotes]
        constructor
        · rintro ⟨w, rfl, h⟩; exact ⟨true, [1], w, rfl, .inr ⟨rfl, rfl⟩, by simpa using h⟩
        · rintro ⟨b, x, y, rfl, ⟨rfl, rfl⟩ | ⟨rfl, rfl⟩, h⟩
          · simp at h
          · simp only [if_true] at h
            obtain ⟨w, h, h'⟩ := h
            cases h
            exact ⟨y, rfl, h'⟩
  | .bool => by
    rw [deTy]
    exact Parses.bool.congr fun v u => by rw [TypeDenotes]; cases v <;> simp
  | .u8 => by rw [deTy]; exact Parses.u8.congr fun v u => by rw [TypeDenotes]
  | .u16 => by rw [deTy]; exact Parses.u16.congr fun v u => by rw [TypeDenotes]
  | .u32 => by rw [deTy]; exact Parses.u32.congr fun v u => by rw [TypeDenotes]
  | .u64 => by rw [deTy]; exact Parses.u64.congr fun v u => by rw [TypeDenotes]
  | .i8 => by rw [deTy]; exact Parses.i8.congr fun v u => by rw [TypeDenotes]
  | .i16 => by rw [deTy]; exact Parses.i16.congr fun v u => by rw [TypeDenotes]
  | .i32 => by rw [deTy]; exact Parses.i32.congr fun v u => by rw [TypeDenotes]
  | .i64 => by rw [deTy]; exact Parses.i64.congr fun v u => by rw [TypeDenotes]
  | .f32 => by rw [deTy]; exact Parses.f32.congr fun v u => by rw [TypeDenotes]
  | .f64 => by rw [deTy]; exact Parses.f64.congr fun v u => by rw [TypeDenotes]
  | .bigUint => by
    rw [deTy]
    refine ((Parses.vecU8 ht).wrap BigUint.mk).congr fun v u => ?_
    rw [TypeDenotes]
    constructor
    · intro h; exact ⟨v.bytes, rfl, h⟩
    · rintro ⟨y, rfl, h⟩; exact h
  | .numBigUint => by
    rw [deTy]
    refine ((Parses.vecU8 ht).wrap Num.fromBytesLe).congr fun v u => ?_
    rw [TypeDenotes]
    simp only [Num.fromBytesLe_eq, eq_comm]
  | .bigInt => by
    rw [deTy]
    refine ((Parses.vecU8 ht).wrap BigInt.mk).congr fun v u => ?_
    rw [TypeDenotes]
    constructor
    · intro h; exact ⟨v.bytes, rfl, h⟩
    · rintro ⟨y, rfl, h⟩; exact h
  | .numBigInt => by
    rw [deTy]
    refine ((Parses.vecU8 ht).wrap Num.fromSignedBytesLe).congr fun v u => ?_
    rw [TypeDenotes]
    simp only [Num.fromSignedBytesLe_eq, eq_comm]
  | .bigDecimal => by
    rw [deTy]; exact (Parses.bigDecimal ht).congr fun v u => by rw [TypeDenotes]
  | .numBigDecimal => by
    rw [deTy]; exact (parses_numDecimal ht).congr fun v u => by rw [TypeDenotes]
  | .str => by
    rw [deTy]
    exact (Parses.never fun fin bs v rest h => by cases h).congr fun v u => by rw [TypeDenotes]
  | .string => by rw [deTy]; exact (Parses.string ht).congr fun v u => by rw [TypeDenotes]
  | .bytes => by
    rw [deTy]
    exact (Parses.never fun fin bs v rest h => by cases h).congr fun v u => by rw [TypeDenotes]
  | .byteBuf => by rw [deTy]; exact (Parses.byteBuf ht hm).congr fun v u => by rw [TypeDenotes]
  | .vec T => by
    rw [deTy]
    have he : (De.deU64 >>= fun c => De.times (t.asUsize c) (deTy t mode env T)) =
        (De.deU64 >>= fun c => De.times c.toNat (deTy t mode env T)) := by
      congr 1
      funext c
      rw [De.asUsize_w64 ht]
    rw [he]
    refine (Parses.countedFull fun n => (parses_ty ht hm mode env T).times n).congr fun v u => ?_
    rw [TypeDenotes]
    constructor
    · rintro ⟨l, w, rfl, h1, h2⟩; exact ⟨v.length, l, w, rfl, h1, rfl, h2⟩
    · rintro ⟨n, l, w, rfl, h1, rfl, h2⟩; exact ⟨l, w, rfl, h1, h2⟩
  | .date => by rw [deTy]; exact (Parses.date mode).congr fun v u => by rw [TypeDenotes]
  | .timeDate => by rw [deTy]; exact (parses_timeDate mode).congr fun v u => by rw [TypeDenotes]
  | .dateTime => by rw [deTy]; exact parses_dateTime.congr fun v u => by rw [TypeDenotes]
  | .offsetDateTime => by
    rw [deTy]; exact parses_offsetDateTime.congr fun v u => by rw [TypeDenotes]
  | .btreeMap T => by
    rw [deTy]
    refine (parses_counted ht fun n => parses_entries ht (parses_ty ht hm mode env T) n).congr
      fun v u => ?_
    rw [TypeDenotes]
    constructor
    · rintro ⟨es, l, w, h1, rfl, h2, h3⟩
      exact ⟨es.length, l, w, rfl, h2, es, (collected_eq _ _).mp h1, rfl, h3⟩
    · rintro ⟨n, l, w, rfl, h2, es, h1, rfl, h3⟩
      exact ⟨es, l, w, (collected_eq _ _).mpr h1, rfl, h2, h3⟩
  | .hashMap T => by
    rw [deTy]
    refine (parses_counted ht fun n => parses_entries ht (parses_ty ht hm mode env T) n).congr
      fun v u => ?_
    rw [TypeDenotes]
    constructor
    · rintro ⟨es, m, l, w, rfl, h1, rfl, h2, h3⟩
      exact ⟨es.length, l, w, rfl, h2, es, by rw [(gathered_iff _ _).mp h1], rfl, h3⟩
    · rintro ⟨n, l, w, rfl, h2, es, rfl, rfl, h3⟩
      exact ⟨es, collectHash es, l, w, rfl, (gathered_iff _ _).mpr rfl, rfl, h2, h3⟩
  | .tuple Ts => by
    rw [deTy]; exact (parses_tuple ht hm mode env Ts).congr fun v u => by rw [TypeDenotes]
  | .struct _ (.named fs) => by
    rw [deTy]; exact (parses_fields ht hm mode env fs).congr fun v u => by rw [TypeDenotes]
  | .struct _ (.unnamed []) => by
    rw [deTy]; exact (Parses.ret ()).congr fun v u => by rw [TypeDenotes]; simp
  | .struct _ (.unnamed [.mk _ _ T]) => by
    rw [deTy]
    refine ((parses_ty ht hm mode env T).wrap fun v => (v, ())).congr fun v u => ?_
    rw [TypeDenotes]
    constructor
    · intro h; exact ⟨v.1, rfl, h⟩
    · rintro ⟨w, rfl, h⟩; exact h
  | .struct _ (.unnamed (f :: g :: fs)) => by
    rw [deTy]
    exact (parses_fields ht hm mode env (f :: g :: fs)).congr fun v u => by rw [TypeDenotes]
  | .struct _ .unit => by
    rw [deTy]; exact (Parses.ret ()).congr fun v u => by rw [TypeDenotes]; simp
  | .enum _ vs => by
    rw [deTy]
    refine (Parses.u16.bind fun i => parses_variant ht hm mode env i.toNat vs).congr fun v u => ?_
    rw [TypeDenotes]
  | .union _ => by
    rw [deTy]
    exact (Parses.never fun fin bs v rest h => by cases h).congr fun v u => by rw [TypeDenotes]
  | .foreign => by
    rw [deTy]
    exact (Parses.never fun fin bs v rest h => by cases h).congr fun v u => by rw [TypeDenotes]
theorem parses_tuple (ht : t.ptr = .w64) (hm : 4096 ≤ t.memLimit) (mode : BuildMode) (env : Env) :
    ∀ Ts : List RTy, Parses t (deTuple t mode env Ts) (TupleDenotes mode env Ts)
  | [] => by rw [deTuple]; exact (Parses.ret ()).congr fun v u => by rw [TupleDenotes]; simp
  | T :: Ts => by
    rw [deTuple]
    refine ((parses_ty ht hm mode env T).bind fun v =>
      (parses_tuple ht hm mode env Ts).wrap fun vs => (v, vs)).congr fun v u => ?_
    rw [TupleDenotes]
    constructor
    · rintro ⟨x, y, rfl, h1, h2⟩; exact ⟨v.1, x, y, rfl, h1, v.2, rfl, h2⟩
    · rintro ⟨a, x, y, rfl, h1, b, rfl, h2⟩; exact ⟨x, y, rfl, h1, h2⟩
theorem parses_fields (ht : t.ptr = .w64) (hm : 4096 ≤ t.memLimit) (mode : BuildMode) (env : Env) :
    ∀ fs : List RField, Parses t (deFields t mode env fs) (FieldsDenote mode env fs)
  | [] => by rw [deFields]; exact (Parses.ret ()).congr fun v u => by rw [FieldsDenote]; simp
  | .mk attrs _ T :: fs => by
    rw [deFields]
    by_cases hs : SkippedDe attrs
    · rw [if_pos ((deSkips_iff attrs).mpr hs)]
      cases hd : env.dflt attrs T with
      | none =>
        refine (Parses.never fun fin bs v rest h => by cases h).congr fun v u => ?_
        rw [FieldsDenote, hd]
        simp [hs]
      | some d =>
        refine ((parses_fields ht hm mode env fs).wrap fun vs => (d, vs)).congr fun v u => ?_
        rw [FieldsDenote, hd]
        constructor
        · rintro ⟨x, y, rfl, ⟨-, h1, rfl⟩ | ⟨h1, -⟩, h2⟩
          · exact ⟨v.2, by rw [Option.some.inj h1], h2⟩
          · exact (h1 hs).elim
        · rintro ⟨b, rfl, h2⟩; exact ⟨[], u, rfl, .inl ⟨hs, rfl, rfl⟩, h2⟩
    · rw [if_neg fun h => hs ((deSkips_iff attrs).mp h)]
      refine ((parses_ty ht hm mode env T).bind fun v =>
        (parses_fields ht hm mode env fs).wrap fun vs => (v, vs)).congr fun v u => ?_
      rw [FieldsDenote]
      constructor
      · rintro ⟨x, y, rfl, ⟨h1, -⟩ | ⟨-, h1⟩, h2⟩
        · exact (hs h1).elim
        · exact ⟨v.1, x, y, rfl, h1, v.2, rfl, h2⟩
      · rintro ⟨a, x, y, rfl, h1, b, rfl, h2⟩; exact ⟨x, y, rfl, .inr ⟨hs, h1⟩, h2⟩
theorem parses_variant (ht : t.ptr = .w64) (hm : 4096 ≤ t.memLimit) (mode : BuildMode) (env : Env)
    {idx : Nat} :
    ∀ (n : Nat) (vs : List RVariant), Parses t (deVariant t mode env idx n vs) (VariantDenotes mode env n vs)
  | _, [] => by
    rw [deVariant]
    exact (Parses.never fun fin bs v rest h => by cases h).congr fun v u => by cases v
  | n, .mk attrs _ fields :: vs => by
    by_cases hs : SkippedDe attrs
    · rw [deVariant_skip t mode env n hs]
      refine ((parses_variant ht hm mode env n vs).wrap Sum.inr).congr fun v u => ?_
      cases v with
      | inl v => simp [VariantDenotes, hs]
      | inr v => simp [VariantDenotes, hs]
    · cases n with
      | zero =>
        rw [deVariant_zero t mode env hs]
        refine ((parses_payload ht hm mode env fields).wrap Sum.inl).congr fun v u => ?_
        cases v with
        | inl v => simp [VariantDenotes, hs]
        | inr v => simp [VariantDenotes, hs]
      | succ n =>
        rw [deVariant_succ t mode env n hs]
        refine ((parses_variant ht hm mode env n vs).wrap Sum.inr).congr fun v u => ?_
        cases v with
        | inl v => simp [VariantDenotes]
        | inr v => simp [VariantDenotes, hs]
theorem parses_payload (ht : t.ptr = .w64) (hm : 4096 ≤ t.memLimit) (mode : BuildMode) (env : Env) :
    ∀ fields : RFields, Parses t (dePayload t mode env fields) (PayloadDenotes mode env fields)
  | .named fs => by
    rw [dePayload]; exact (parses_fields ht hm mode env fs).congr fun v u => by rw [PayloadDenotes]
  | .unnamed fs => by
    rw [dePayload]; exact (parses_fields ht hm mode env fs).congr fun v u => by rw [PayloadDenotes]
  | .unit => by
    rw [dePayload]; exact (Parses.ret ()).congr fun v u => by rw [PayloadDenotes]; simp
end

/-! ## Forms no longer than the encoding -/

/-- The encoder writes bytes close to `u`. -/
def Tight (ok : Prop) (p : WProg SerErr) (u : List UInt8) : Prop :=
  ∃ enc, p.exec = (enc, .ok ()) ∧ Close ok enc u

namespace Tight

variable {ok : Prop} {p q : WProg SerErr} {u x : List UInt8}

theorem lift {w : List UInt8} (h : p.exec = (w, .ok ())) (hc : Close ok w u) : Tight ok p u := ⟨w, h, hc⟩

theorem exact {w : List UInt8} (h : p.exec = (w, .ok ())) : Tight ok p w := ⟨w, h, .refl w⟩

theorem skip : Tight ok .skip [] := ⟨[], rfl, .refl _⟩

theorem andThen (hp : Tight ok p u) (hq : Tight ok q x) : Tight ok (p.andThen q) (u ++ x) := by
  obtain ⟨e, h1, h2⟩ := hp
  obtain ⟨f, h3, h4⟩ := hq
  exact ⟨e ++ f, by rw [WProg.exec_andThen_ok h1, h3], h2.append h4⟩

theorem seq {α : Type} {f : α → WProg SerErr} {R : α → List UInt8 → Prop}
    (h : ∀ a u, R a u → Tight ok (f a) u) : ∀ (vs : List α) (u : List UInt8), Joined R vs u →
      Tight ok (serSeq f vs) u
  | [], u, hu => by
    cases (show u = [] from hu)
    exact skip
  | a :: as, u, ⟨x, y, hxy, h1, h2⟩ => by
    subst hxy
    exact (h a x h1).andThen (seq h as y h2)

end Tight

theorem number_lt {n : Nat} {u : List UInt8} (h : Number 64 n u) : n < 2 ^ 64 :=
  De.varintDecode_lt (by simp) ((number_iff 64 (by simp) _ _).mp h)

theorem prefixed_lt {b u : List UInt8} (h : Prefixed b u) : b.length < 2 ^ 64 := by
  obtain ⟨l, hl, -⟩ := h
  exact number_lt hl

/-- A shorter body takes fewer bytes. -/
theorem close_longer (ok : Prop) {b body u : List UInt8} (hb : b.length < body.length)
    (h : Prefixed body u) : Close ok (block b) u := by
  have hc := (close_sized ok body u h).1
  have hl := length_varint64_mono (Nat.le_of_lt hb)
  simp only [block, List.length_append] at hc hl
  refine ⟨by simp only [block, List.length_append]; omega, fun he => ?_⟩
  simp only [block, List.length_append] at he
  omega

theorem leValue_inj {a b : List UInt8} (hl : a.length = b.length) (h : leValue a = leValue b) : a = b := by
  rw [← leBytes_leValue a, ← leBytes_leValue b, hl, h]

theorem signedValue_inj {a b : List UInt8} (hl : a.length = b.length)
    (h : signedValue a = signedValue b) : a = b := by
  refine leValue_inj hl ?_
  by_cases ha : a = []
  · subst ha
    rw [List.length_eq_zero_iff.mp (hl.symm)]
  · have hb : b ≠ [] := fun hb => ha (List.length_eq_zero_iff.mp (by rw [hl, hb]; rfl))
    have h1 := leValue_lt a
    have h2 := leValue_lt b
    rw [Num.signedValue_eq ha, Num.signedValue_eq hb, hl] at h
    rw [hl] at h1
    generalize 256 ^ b.length = P at *
    split at h <;> split at h <;> omega

theorem tight_numBigUint (ok : Prop) {body u : List UInt8} (h : Prefixed body u) :
    Tight ok (Format.serBigUint (leValue body)) u := by
  rw [Format.serBigUint_eq]
  have hs := BigUint.shortest (leValue body)
  have hl := hs.2 body rfl
  have := prefixed_lt h
  refine .lift (BigUint.exec_ser _ (by omega)) ?_
  rcases Nat.lt_or_eq_of_le hl with hlt | heq
  · exact close_longer ok hlt h
  · rw [leValue_inj heq hs.1]; exact close_sized ok _ u h

theorem tight_numBigInt (ok : Prop) {body u : List UInt8} (h : Prefixed body u) :
    Tight ok (Format.serBigInt (signedValue body)) u := by
  rw [Format.serBigInt_eq]
  have hs := BigInt.shortest (signedValue body)
  have hl := hs.2 body rfl
  have := prefixed_lt h
  refine .lift (BigInt.exec_ser _ (by omega)) ?_
  rcases Nat.lt_or_eq_of_le hl with hlt | heq
  · exact close_longer ok hlt h
  · rw [signedValue_inj heq hs.1]; exact close_sized ok _ u h

theorem dateFits_of_denotes {mode : BuildMode} {d : Date} {u : List UInt8}
    (h : DateDenotes mode d u) (hm : mode = .debug) : DateFits d := by
  obtain ⟨y, o, l, w, rfl, -, -, h1, h2, h3⟩ := h
  obtain ⟨h4, h5⟩ := h3 hm
  have h6 := y.le_toInt
  constructor
  · have e : (y + 2000).toInt = y.toInt + 2000 := by
      rw [Int32.toInt_add]
      have : (2000 : Int32).toInt = 2000 := by decide
      rw [this]
      rw [Int.bmod_eq_of_le] <;> omega
    rw [h1, e]; omega
  · have e : (o + 1).toNat = o.toNat + 1 := by
      rw [UInt16.toNat_add]
      have : (1 : UInt16).toNat = 1 := by decide
      omega
    rw [h2, e]; omega

mutual
theorem tight_ty (narrow : Bool) (mode : BuildMode) (env : Env) : (T : RTy) →
    (∀ U ∈ typeParts T, SymmetricPart U ∧ FirmPart narrow U) → (v : Carrier T) → (u : List UInt8) →
    TypeDenotes mode env T v u → Tight (narrow = true) (ser mode T v) u
  | .unit, _, v, u, h => by
    rw [TypeDenotes] at h; subst h; rw [ser]; exact .skip
  | .option _, _, none, u, h => by
    rw [TypeDenotes] at h; subst h; rw [ser]; exact .exact (Ser.exec_emit _)
  | .option T, hT, some v, u, h => by
    rw [TypeDenotes] at h
    obtain ⟨w, rfl, h⟩ := h
    rw [ser]
    exact (Tight.exact (Ser.exec_emit [1])).andThen
      (tight_ty narrow mode env T (fun U hU => hT U (by simp [typeParts, hU])) v w h)
  | .bool, _, v, u, h => by
    rw [TypeDenotes] at h; subst h; rw [ser]; cases v <;> exact .exact (Ser.exec_emit _)
  | .u8, _, v, u, h => by
    rw [TypeDenotes] at h; subst h; rw [ser]; exact .exact (Ser.exec_emit _)
  | .u16, hT, v, u, h => by
    have hp := (hT .u16 (by simp [typeParts])).2
    rw [TypeDenotes] at h; rw [ser]
    exact .lift (Ser.exec_serU16 v) (close_narrow hp 16 (by simp) _ u h)
  | .u32, hT, v, u, h => by
    have hp := (hT .u32 (by simp [typeParts])).2
    rw [TypeDenotes] at h; rw [ser]
    exact .lift (Ser.exec_serU32 v) (close_narrow hp 32 (by simp) _ u h)
  | .u64, _, v, u, h => by
    rw [TypeDenotes] at h; rw [ser]
    exact .lift (Ser.exec_serU64 v) (close_number _ 64 (by simp) _ (by simp) u h)
  | .i8, _, v, u, h => by
    rw [TypeDenotes] at h; subst h; rw [ser]; exact .exact (Ser.exec_emit _)
  | .i16, hT, v, u, h => by
    have hp := (hT .i16 (by simp [typeParts])).2
    rw [TypeDenotes] at h; rw [ser]
    exact .lift (Ser.exec_serI16 v) (close_narrow hp 16 (by simp) _ u h)
  | .i32, hT, v, u, h => by
    have hp := (hT .i32 (by simp [typeParts])).2
    rw [TypeDenotes] at h; rw [ser]
    exact .lift (Ser.exec_serI32 v) (close_narrow hp 32 (by simp) _ u h)
  | .i64, _, v, u, h => by
    rw [TypeDenotes] at h; rw [ser]
    exact .lift (Ser.exec_serI64 v) (close_number _ 64 (by simp) _ (by simp) u h)
  | .f32, _, v, u, h => by
    rw [TypeDenotes] at h; subst h; rw [ser]; exact .exact (Ser.exec_serF32 v)
  | .f64, _, v, u, h => by
    rw [TypeDenotes] at h; subst h; rw [ser]; exact .exact (Ser.exec_serF64 v)
  | .bigUint, _, v, u, h => by
    rw [TypeDenotes] at h; rw [ser]
    exact .lift (BigUint.exec_ser v (prefixed_lt h)) (close_sized _ _ u h)
  | .numBigUint, _, v, u, h => by
    rw [TypeDenotes] at h
    obtain ⟨body, rfl, h⟩ := h
    rw [ser]; exact tight_numBigUint _ h
  | .bigInt, _, v, u, h => by
    rw [TypeDenotes] at h; rw [ser]
    exact .lift (BigInt.exec_ser v (prefixed_lt h)) (close_sized _ _ u h)
  | .numBigInt, _, v, u, h => by
    rw [TypeDenotes] at h
    obtain ⟨body, rfl, h⟩ := h
    rw [ser]; exact tight_numBigInt _ h
  | .bigDecimal, _, v, u, h => by
    rw [TypeDenotes] at h; rw [ser]
    have hl : v.signedBytes.length < 2 ^ 64 := by
      rcases h with ⟨h1, -⟩ | ⟨-, l, w, -, h2, -⟩
      · rw [h1]; decide
      · exact prefixed_lt h2
    refine .lift (BigDecimal.exec_ser v hl) ?_
    rw [decimalWire]
    rcases h with ⟨h1, -, h2⟩ | ⟨h1, l, x, rfl, h2, h3⟩
    · rw [if_pos h1]
      have := close_sized (narrow = true) _ u h2
      have e : block [] = [0] := by decide +kernel
      rw [e] at this
      exact this
    · rw [if_neg h1]
      exact (close_sized _ _ l h2).append (close_number _ 64 (by simp) _ (by simp) x h3)
  | .numBigDecimal, hT, v, u, h => (hT .numBigDecimal (by simp [typeParts])).2.elim
  | .str, _, v, u, h => by rw [TypeDenotes] at h; exact h.elim
  | .string, _, v, u, h => by
    rw [TypeDenotes] at h; rw [ser]
    exact .lift (Ser.exec_serStr v (prefixed_lt h)) (close_sized _ _ u h)
  | .bytes, _, v, u, h => by rw [TypeDenotes] at h; exact h.elim
  | .byteBuf, _, v, u, h => by
    rw [TypeDenotes] at h; rw [ser]
    exact .lift (Ser.exec_serBytes v (prefixed_lt h)) (close_sized _ _ u h)
  | .vec T, hT, vs, u, h => by
    rw [TypeDenotes] at h
    obtain ⟨l, w, rfl, h1, h2⟩ := h
    rw [ser]
    refine (Tight.lift (Ser.exec_serHint (some vs.length) ?_) ?_).andThen (Tight.seq
      (tight_ty narrow mode env T (fun U hU => hT U (by simp [typeParts, hU]))) vs w h2)
    · intro n hn; cases hn; exact number_lt h1
    · exact close_number _ 64 (by simp) _ (by simp) l h1
  | .date, hT, v, u, h => by
    have hp := (hT .date (by simp [typeParts])).2
    rw [TypeDenotes] at h; rw [ser]
    exact .lift (Date.exec_ser mode v (dateFits_of_denotes h)) (close_date hp h)
  | .timeDate, hT, v, u, h => by
    have hp := (hT .timeDate (by simp [typeParts])).2
    rw [TypeDenotes] at h; rw [ser]
    exact .lift (reads_timeDate ⟨.w64, 0⟩ mode v h.1).bytes (close_date hp h.2)
  | .dateTime, hT, v, u, h => by
    have hp := (hT .dateTime (by simp [typeParts])).2
    rw [TypeDenotes] at h; rw [ser]
    obtain ⟨l, w, rfl, h1, h2⟩ := h
    exact .lift (DateTime.exec_ser v) ((close_number _ 64 (by simp) _ (by simp) l h1).append
      (close_narrow hp 32 (by simp) _ w h2))
  | .offsetDateTime, hT, v, u, h => (hT .offsetDateTime (by simp [typeParts])).2.elim
  | .btreeMap T, hT, v, u, h => (hT (.btreeMap T) (by simp [typeParts])).2.elim
  | .hashMap T, hT, v, u, h => (hT (.hashMap T) (by simp [typeParts])).2.elim
  | .tuple Ts, hT, v, u, h => by
    rw [TypeDenotes] at h; rw [ser]
    exact tight_tuple narrow mode env Ts (fun U hU => hT U (by simp [typeParts, hU])) v u h
  | .struct n (.named fs), hT, v, u, h => by
    have hs := (hT (.struct n (.named fs)) (by simp [typeParts])).1
    rw [TypeDenotes] at h; rw [ser]
    exact tight_fields narrow mode env fs hs (fun U hU => hT U (by simp [typeParts, hU])) v u h
  | .struct n (.unnamed []), _, v, u, h => by
    rw [TypeDenotes] at h; subst h; rw [ser]; exact .skip
  | .struct n (.unnamed [.mk attrs fn T]), hT, v, u, h => by
    have hs := (hT (.struct n (.unnamed [.mk attrs fn T])) (by simp [typeParts])).1
    have hk : ¬ Skipped attrs := hs.2 rfl (.mk attrs fn T) (by simp)
    rw [TypeDenotes] at h; rw [ser]
    exact tight_ty narrow mode env T
      (fun U hU => hT U (by simp [typeParts, typePartsFields, hk, hU])) v.1 u h
  | .struct n (.unnamed (f :: g :: fs)), hT, v, u, h => by
    have hs := (hT (.struct n (.unnamed (f :: g :: fs))) (by simp [typeParts])).1
    rw [TypeDenotes] at h; rw [ser]
    exact tight_fields narrow mode env (f :: g :: fs) hs.1
      (fun U hU => hT U (by simp only [typeParts, List.mem_cons]; exact .inr hU)) v u h
  | .struct n .unit, _, v, u, h => by
    rw [TypeDenotes] at h; subst h; rw [ser]; exact .skip
  | .enum n vs, hT, v, u, h => by
    have hs := (hT (.enum n vs) (by simp [typeParts])).1
    rw [TypeDenotes] at h; rw [ser]
    obtain ⟨i, l, w, rfl, h1, h2⟩ := h
    exact tight_variant narrow mode env n vs hs.2 (fun U hU => hT U (by simp [typeParts, hU]))
      0 i.toNat (by have := hs.1; omega) v l w (by simpa using h1) h2
  | .union _, _, v, u, h => by rw [TypeDenotes] at h; exact h.elim
  | .foreign, _, v, u, h => by rw [TypeDenotes] at h; exact h.elim
theorem tight_tuple (narrow : Bool) (mode : BuildMode) (env : Env) : (Ts : List RTy) →
    (∀ U ∈ typePartsAll Ts, SymmetricPart U ∧ FirmPart narrow U) → (v : TupleCarrier Ts) →
    (u : List UInt8) → TupleDenotes mode env Ts v u → Tight (narrow = true) (serTuple mode Ts v) u
  | [], _, v, u, h => by
    rw [TupleDenotes] at h; subst h; rw [serTuple]; exact .skip
  | T :: Ts, hT, (v, vs), u, h => by
    rw [TupleDenotes] at h; rw [serTuple]
    obtain ⟨x, y, rfl, h1, h2⟩ := h
    exact (tight_ty narrow mode env T (fun U hU => hT U (by simp [typePartsAll, hU])) v x h1).andThen
      (tight_tuple narrow mode env Ts (fun U hU => hT U (by simp [typePartsAll, hU])) vs y h2)
theorem tight_fields (narrow : Bool) (mode : BuildMode) (env : Env) : (fs : List RField) →
    SymmetricFields fs → (∀ U ∈ typePartsFields fs, SymmetricPart U ∧ FirmPart narrow U) →
    (v : FieldCarrier fs) → (u : List UInt8) → FieldsDenote mode env fs v u →
    Tight (narrow = true) (serFields mode fs v) u
  | [], _, _, v, u, h => by
    rw [FieldsDenote] at h; subst h; rw [serFields]; exact .skip
  | .mk attrs name T :: fs, hs, hT, (v, vs), u, h => by
    rw [FieldsDenote] at h; rw [serFields]
    obtain ⟨x, y, rfl, h1, h2⟩ := h
    have ih := tight_fields narrow mode env fs (fun f hf => hs f (by simp [hf]))
      (fun U hU => hT U (by simp [typePartsFields, hU])) vs y h2
    have hsym : Skipped attrs ↔ SkippedDe attrs := (hs _ List.mem_cons_self).1
    rcases h1 with ⟨hk, -, rfl⟩ | ⟨hk, h1⟩
    · rw [if_pos ((serdeSkips_iff attrs).mpr (hsym.mpr hk))]
      exact ih
    · have hk' : ¬ Skipped attrs := fun h => hk (hsym.mp h)
      rw [if_neg fun h => hk' ((serdeSkips_iff attrs).mp h)]
      exact (tight_ty narrow mode env T
        (fun U hU => hT U (by simp [typePartsFields, hk', hU])) v x h1).andThen ih
theorem tight_variant (narrow : Bool) (mode : BuildMode) (env : Env) (name : String) :
    (vs : List RVariant) →
    (∀ v ∈ vs, ¬ Skipped (variantAttrs v) ∧ ¬ SkippedDe (variantAttrs v) ∧
      SymmetricFields (Spec.variantFields v)) →
    (∀ U ∈ typePartsVariants vs, SymmetricPart U ∧ FirmPart narrow U) → (i n : Nat) →
    i + vs.length ≤ 16384 → (v : VariantsCarrier vs) → (l u : List UInt8) →
    Number 16 (i + n) l → VariantDenotes mode env n vs v u →
    Tight (narrow = true) (serVariant mode name i vs v) (l ++ u)
  | .mk attrs vn fields :: vs, hs, hT, i, n, hi, .inl v, l, u, hl, h => by
    rw [VariantDenotes] at h
    obtain ⟨rfl, -, h⟩ := h
    have hk := (hs _ List.mem_cons_self).1
    have hsf := (hs _ List.mem_cons_self).2.2
    have hsk : ¬ serdeSkips attrs = true := by rw [serdeSkips_iff]; exact hk
    have hlt : i < 16384 := by rw [List.length_cons] at hi; omega
    have hto : (UInt32.ofNat i).toNat = i := by
      rw [UInt32.toNat_ofNat']; omega
    have hidx : Tight (narrow = true) (Ser.serU32 (UInt32.ofNat i)) l := by
      refine .lift (Ser.exec_serU32 _) ?_
      rw [hto, (varint_index hlt).1]
      exact close_number _ 16 (by simp) _ (.inr (.inr (varint_index hlt).2)) l hl
    cases fields with
    | named fs =>
      rw [PayloadDenotes] at h
      rw [serVariant, if_neg hsk]
      exact hidx.andThen (tight_fields narrow mode env fs hsf
        (fun U hU => hT U (by simp [typePartsVariants, hU])) v u h)
    | unnamed fs =>
      rw [PayloadDenotes] at h
      rw [serVariant, if_neg hsk]
      exact hidx.andThen (tight_fields narrow mode env fs hsf
        (fun U hU => hT U (by simp [typePartsVariants, hU])) v u h)
    | unit =>
      rw [PayloadDenotes] at h
      subst h
      rw [serVariant, if_neg hsk]
      exact hidx.andThen .skip
  | .mk attrs vn fields :: vs, hs, hT, i, n, hi, .inr v, l, u, hl, h => by
    have hk := (hs _ List.mem_cons_self).2.1
    rw [VariantDenotes] at h
    rcases h with ⟨hk', -⟩ | ⟨-, m, rfl, h⟩
    · exact (hk hk').elim
    · rw [serVariant]
      exact tight_variant narrow mode env name vs (fun v hv => hs v (by simp [hv]))
        (fun U hU => hT U (by cases fields <;> simp [typePartsVariants, hU])) (i + 1) m
        (by rw [List.length_cons] at hi; omega) v l u
        (by rw [show i + 1 + m = i + (m + 1) by omega]; exact hl) h
end

end Derive
end Dlhn
