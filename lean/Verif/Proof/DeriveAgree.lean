import Verif.Spec.DeriveAgree
import Verif.Proof.DeriveDe
import Verif.Proof.DeriveBody
import Verif.Proof.DeExact
/-! # Typed and dynamic decoding of the same input -/
namespace Dlhn

open Spec hiding variantFields

theorem Prog.exec_suffix {ε α : Type} (t : Target) (fin : Ending) (p : Prog ε α) (bs : List UInt8)
    (a : α) (r : List UInt8) (h : Prog.exec t fin p bs = .ok (a, r)) : r <:+ bs := by
  induction p generalizing bs with
  | done o =>
    cases o with
    | ok x =>
      simp only [Prog.exec, Outcome.ok.injEq, Prod.mk.injEq] at h
      rw [h.2]
      exact List.suffix_refl _
    | err e => simp [Prog.exec] at h
    | panic q => simp [Prog.exec] at h
  | readExact n onErr k ih =>
    rw [Prog.exec] at h
    split at h
    · exact (ih _ _ h).trans (List.drop_suffix _ _)
    · simp at h
  | takeToEnd n onErr k ih =>
    rw [Prog.exec.eq_def] at h
    simp only at h
    split at h
    · exact (ih _ _ h).trans (List.drop_suffix _ _)
    · split at h
      · exact (ih _ _ h).trans (List.nil_suffix)
      · simp at h
  | alloc n k ih =>
    rw [Prog.exec] at h
    split at h
    · simp at h
    · exact ih _ h

namespace Derive

/-! ## Comparing two decoders -/

/-- How the outcomes of the typed and the dynamic decoder compare. `N`: the typed
decoder may reject more; `M`: errors may differ; only inputs are compared in
which indices below `m` are read alike. -/
inductive Compare {α β : Type} (N M : Prop) (m : Nat) (R : α → β → Prop) :
    Outcome DeErr (α × List UInt8) → Outcome DeErr (β × List UInt8) → Prop where
  | both (a : α) (b : β) (r : List UInt8) : R a b → AlikeIndexes m r →
      Compare N M m R (.ok (a, r)) (.ok (b, r))
  | errors (e e' : DeErr) : (M ∨ e = e') → Compare N M m R (.err e) (.err e')
  | panics (k : PanicKind) : Compare N M m R (.panic k) (.panic k)
  | refused (o : Outcome DeErr (α × List UInt8)) (k : PanicKind) :
      k = .capacityOverflow ∨ k = .allocFailure → Compare N M m R o (.panic k)
  | rejected (o : Outcome DeErr (α × List UInt8)) (o' : Outcome DeErr (β × List UInt8)) : N →
      (∀ x, o ≠ .ok x) → Compare N M m R o o'

/-- On every input the outcomes compare. -/
def Sim {α β : Type} (t : Target) (N M : Prop) (m : Nat) (R : α → β → Prop) (p : Prog DeErr α)
    (q : Prog DeErr β) : Prop :=
  ∀ fin bs, AlikeIndexes m bs → Compare N M m R (Prog.exec t fin p bs) (Prog.exec t fin q bs)

theorem _root_.Dlhn.Spec.AlikeIndexes.suffix {n : Nat} {bs r : List UInt8} (h : AlikeIndexes n bs)
    (hr : r <:+ bs) : AlikeIndexes n r := fun r' h' => h r' (h'.trans hr)

variable {α β γ δ : Type} {t : Target} {N M : Prop} {m : Nat}

theorem Sim.pure {R : α → β → Prop} {a : α} {b : β} (h : R a b) :
    Sim t N M m R (Pure.pure a) (Pure.pure b) := fun _ bs hb => .both a b bs h hb

theorem Sim.refl (p : Prog DeErr α) : Sim t N M m Eq p p := by
  intro fin bs hb
  cases h : Prog.exec t fin p bs with
  | ok x =>
    obtain ⟨a, r⟩ := x
    exact .both a a r rfl (hb.suffix (Prog.exec_suffix t fin p bs a r h))
  | err e => exact .errors e e (.inr rfl)
  | panic k => exact .panics k

theorem Compare.bind {fin : Ending} {R : α → β → Prop} {S : γ → δ → Prop}
    {o1 : Outcome DeErr (α × List UInt8)} {o2 : Outcome DeErr (β × List UInt8)}
    {f : α → Prog DeErr γ} {g : β → Prog DeErr δ} (h : Compare N M m R o1 o2)
    (hf : ∀ a b r, R a b → AlikeIndexes m r →
      Compare N M m S (Prog.exec t fin (f a) r) (Prog.exec t fin (g b) r)) :
    Compare N M m S (Prog.next o1 fun a r => Prog.exec t fin (f a) r)
      (Prog.next o2 fun b r => Prog.exec t fin (g b) r) := by
  cases h with
  | both a b r hR hr => exact hf a b r hR hr
  | errors e e' he => exact .errors e e' he
  | panics k => exact .panics k
  | refused o k hk => exact .refused _ k hk
  | rejected _ _ hN ho =>
    refine .rejected _ _ hN fun x => ?_
    cases o1 with
    | ok y => exact absurd rfl (ho y)
    | err e => simp
    | panic k => simp

theorem Sim.bind {R : α → β → Prop} {S : γ → δ → Prop} {p : Prog DeErr α} {q : Prog DeErr β}
    {f : α → Prog DeErr γ} {g : β → Prog DeErr δ} (h : Sim t N M m R p q)
    (hf : ∀ a b, R a b → Sim t N M m S (f a) (g b)) : Sim t N M m S (p.bind f) (q.bind g) := by
  intro fin bs hb
  rw [Prog.exec_bind, Prog.exec_bind]
  exact (h fin bs hb).bind fun a b r hR hr => hf a b hR fin r hr

theorem Sim.map {R : α → β → Prop} {S : α → δ → Prop} {p : Prog DeErr α} {q : Prog DeErr β}
    {f : β → δ} (h : Sim t N M m R p q) (hf : ∀ a b, R a b → S a (f b)) :
    Sim t N M m S p (q.bind fun b => Pure.pure (f b)) := by
  intro fin bs hb
  rw [Prog.exec_bind]
  have := h fin bs hb
  revert this
  generalize Prog.exec t fin p bs = o1
  generalize Prog.exec t fin q bs = o2
  intro h
  cases h with
  | both a b r hR hr => exact .both a (f b) r (hf a b hR) hr
  | errors e e' he => exact .errors e e' he
  | panics k => exact .panics k
  | refused o k hk => exact .refused _ k hk
  | rejected _ _ hN ho => exact .rejected _ _ hN ho

theorem Sim.mapLeft {R : α → β → Prop} {S : γ → β → Prop} {p : Prog DeErr α} {q : Prog DeErr β}
    {f : α → γ} (h : Sim t N M m R p q) (hf : ∀ a b, R a b → S (f a) b) :
    Sim t N M m S (p.bind fun a => Pure.pure (f a)) q := by
  intro fin bs hb
  rw [Prog.exec_bind]
  have := h fin bs hb
  revert this
  generalize Prog.exec t fin p bs = o1
  generalize Prog.exec t fin q bs = o2
  intro h
  cases h with
  | both a b r hR hr => exact .both (f a) b r (hf a b hR) hr
  | errors e e' he => exact .errors e e' he
  | panics k => exact .panics k
  | refused o k hk => exact .refused _ k hk
  | rejected _ _ hN ho =>
    refine .rejected _ _ hN fun x => ?_
    cases o1 with
    | ok y => exact absurd rfl (ho y)
    | err e => simp
    | panic k => simp

/-- The dynamic decoder wraps what the typed one returns. -/
theorem Sim.leaf {S : α → δ → Prop} {p : Prog DeErr α} {f : α → δ} (hf : ∀ a, S a (f a)) :
    Sim t N M m S p (p.bind fun b => Pure.pure (f b)) :=
  (Sim.refl p).map fun a _ h => h ▸ hf a

/-- Both decoders convert what they read. -/
theorem Sim.conv {S : γ → δ → Prop} {p : Prog DeErr α} {f : α → γ} {g : α → β} {c : β → δ}
    (hf : ∀ a, S (f a) (c (g a))) :
    Sim t N M m S (p.bind fun a => Pure.pure (f a))
      ((p.bind fun a => Pure.pure (g a)).bind fun b => Pure.pure (c b)) := by
  refine Sim.map (R := fun a b => S a (c b)) ?_ fun _ _ h => h
  exact (Sim.refl p).bind fun a b h => by subst h; exact Sim.pure (hf a)

theorem Sim.mono {R S : α → β → Prop} {p : Prog DeErr α} {q : Prog DeErr β} (h : Sim t N M m R p q)
    (hRS : ∀ a b, R a b → S a b) : Sim t N M m S p q := by
  intro fin bs hb
  have := h fin bs hb
  revert this
  generalize Prog.exec t fin p bs = o1
  generalize Prog.exec t fin q bs = o2
  intro h
  cases h with
  | both a b r hR hr => exact .both a b r (hRS a b hR) hr
  | errors e e' he => exact .errors e e' he
  | panics k => exact .panics k
  | refused o k hk => exact .refused _ k hk
  | rejected _ _ hN ho => exact .rejected _ _ hN ho

theorem Sim.alloc {R : α → β → Prop} {p : Prog DeErr α} {q : Prog DeErr β} {n : Nat}
    (h : Sim t N M m R p q) : Sim t N M m R p (.alloc n q) := by
  intro fin bs hb
  rw [Prog.exec.eq_def t fin (.alloc n q)]
  simp only
  split
  · rename_i k hk
    refine .refused _ k ?_
    rw [Target.allocate] at hk
    split at hk
    · simp only [Option.some.injEq] at hk; exact .inl hk.symm
    · split at hk
      · simp only [Option.some.injEq] at hk; exact .inr hk.symm
      · cases hk
  · exact h fin bs hb

theorem Sim.times {R : α → β → Prop} {p : Prog DeErr α} {q : Prog DeErr β} (h : Sim t N M m R p q)
    (n : Nat) : Sim t N M m (Pointwise R) (De.times n p) (De.times n q) := by
  induction n with
  | zero => exact .pure trivial
  | succ n ih => exact h.bind fun a b hab => ih.bind fun as bs hs => .pure ⟨hab, hs⟩

theorem Sim.entries {R : α → β → Prop} {p : Prog DeErr α} {q : Prog DeErr β} (h : Sim t N M m R p q)
    (n : Nat) : Sim t N M m (Pointwise fun e c => e.1 = c.1 ∧ R e.2 c.2) (deEntries t p n)
      (deEntries t q n) := by
  induction n with
  | zero => exact .pure trivial
  | succ n ih =>
    exact (Sim.refl _).bind fun k k' hk => h.bind fun a b hab => ih.bind fun as bs hs =>
      Sim.pure ⟨⟨hk, hab⟩, hs⟩

theorem exec_insertLoop_entries (t : Target) (fin : Ending) (q : Prog DeErr β) (n : Nat)
    (m : List (String × β)) (bs : List UInt8) :
    Prog.exec t fin (Body.insertLoop t q n m) bs =
      Prog.exec t fin ((deEntries t q n).bind fun es => Pure.pure (insertAll m es)) bs := by
  induction n generalizing m bs with
  | zero => rfl
  | succ n ih =>
    rw [Prog.exec_bind]
    rw [Body.insertLoop, deEntries, Prog.bind_eq, Prog.exec_bind, Prog.bind_eq, Prog.exec_bind]
    cases Prog.exec t fin (De.deString t) bs with
    | err e => rfl
    | panic k => rfl
    | ok x =>
      obtain ⟨k, r⟩ := x
      simp only [Prog.next_ok, Prog.bind_eq, Prog.exec_bind]
      cases Prog.exec t fin q r with
      | err e => rfl
      | panic k => rfl
      | ok y =>
        obtain ⟨v, r'⟩ := y
        simp only [Prog.next_ok, ih, Prog.exec_bind]
        cases Prog.exec t fin (deEntries t q n) r' with
        | err e => rfl
        | panic k => rfl
        | ok z => rfl

theorem Sim.insertLoop {S : γ → List (String × β) → Prop} {p : Prog DeErr γ} {q : Prog DeErr β}
    {n : Nat} (h : Sim t N M m S p ((deEntries t q n).bind fun es => Pure.pure (insertAll [] es))) :
    Sim t N M m S p (Body.insertLoop t q n []) := by
  intro fin bs hb
  rw [exec_insertLoop_entries]
  exact h fin bs hb

/-! ## Maps -/

theorem pointwise_btreeInsert {R : α → β → Prop} (k : String) (v : α) (w : β) (hR : R v w) :
    (es : List (String × α)) → (cs : List (String × β)) →
    Pointwise (fun e c => e.1 = c.1 ∧ R e.2 c.2) es cs →
    Pointwise (fun e c => e.1 = c.1 ∧ R e.2 c.2) (btreeInsert k v es) (btreeInsert k w cs)
  | [], [], _ => ⟨⟨rfl, hR⟩, trivial⟩
  | (k1, v1) :: es, (k2, v2) :: cs, ⟨⟨hk, h1⟩, h2⟩ => by
    replace hk : k1 = k2 := hk
    subst hk
    rw [btreeInsert, btreeInsert]
    split
    · exact ⟨⟨rfl, hR⟩, ⟨rfl, h1⟩, h2⟩
    · split
      · exact ⟨⟨rfl, h1⟩, pointwise_btreeInsert k v w hR es cs h2⟩
      · exact ⟨⟨rfl, hR⟩, h2⟩

theorem pointwise_hashInsert {R : α → β → Prop} (k : String) (v : α) (w : β) (hR : R v w) :
    (es : List (String × α)) → (cs : List (String × β)) →
    Pointwise (fun e c => e.1 = c.1 ∧ R e.2 c.2) es cs →
    Pointwise (fun e c => e.1 = c.1 ∧ R e.2 c.2) (hashInsert k v es) (hashInsert k w cs)
  | [], [], _ => ⟨⟨rfl, hR⟩, trivial⟩
  | (k1, v1) :: es, (k2, v2) :: cs, ⟨⟨hk, h1⟩, h2⟩ => by
    replace hk : k1 = k2 := hk
    subst hk
    rw [hashInsert, hashInsert]
    split
    · exact ⟨⟨rfl, hR⟩, h2⟩
    · exact ⟨⟨rfl, h1⟩, pointwise_hashInsert k v w hR es cs h2⟩

theorem pointwise_foldl {R : α → β → Prop} {ins : {κ : Type} → String → κ → List (String × κ) → List (String × κ)}
    (hins : ∀ k v w, R v w → ∀ es cs, Pointwise (fun e c => e.1 = c.1 ∧ R e.2 c.2) es cs →
      Pointwise (fun e c => e.1 = c.1 ∧ R e.2 c.2) (ins k v es) (ins k w cs)) :
    (es : List (String × α)) → (cs : List (String × β)) → (m : List (String × α)) →
    (m' : List (String × β)) →
    Pointwise (fun e c => e.1 = c.1 ∧ R e.2 c.2) m m' →
    Pointwise (fun e c => e.1 = c.1 ∧ R e.2 c.2) es cs →
    Pointwise (fun e c => e.1 = c.1 ∧ R e.2 c.2) (es.foldl (fun m e => ins e.1 e.2 m) m)
      (cs.foldl (fun m e => ins e.1 e.2 m) m')
  | [], [], _, _, hm, _ => hm
  | (k1, v1) :: es, (k2, v2) :: cs, m, m', hm, ⟨⟨hk, h1⟩, h2⟩ => by
    replace hk : k1 = k2 := hk
    subst hk
    exact pointwise_foldl hins es cs _ _ (hins k1 v1 v2 h1 _ _ hm) h2

theorem pointwise_collectBTree {R : α → β → Prop} (es : List (String × α)) (cs : List (String × β))
    (h : Pointwise (fun e c => e.1 = c.1 ∧ R e.2 c.2) es cs) :
    Pointwise (fun e c => e.1 = c.1 ∧ R e.2 c.2) (collectBTree es) (insertAll [] cs) :=
  pointwise_foldl (ins := btreeInsert) (fun k v w hR es cs h => pointwise_btreeInsert k v w hR es cs h)
    es cs [] [] trivial h

theorem pointwise_collectHash {R : α → β → Prop} (es : List (String × α)) (cs : List (String × β))
    (h : Pointwise (fun e c => e.1 = c.1 ∧ R e.2 c.2) es cs) :
    Pointwise (fun e c => e.1 = c.1 ∧ R e.2 c.2) (collectHash es) (collectHash cs) :=
  pointwise_foldl (ins := hashInsert) (fun k v w hR es cs h => pointwise_hashInsert k v w hR es cs h)
    es cs [] [] trivial h

theorem mem_hashInsert {m : List (String × α)} (hm : (m.map Prod.fst).Nodup) (k0 : String) (v0 : α)
    (e : String × α) : e ∈ hashInsert k0 v0 m ↔ e = (k0, v0) ∨ (e.1 ≠ k0 ∧ e ∈ m) := by
  induction m with
  | nil => simp [hashInsert]
  | cons x m ih =>
    obtain ⟨k', v'⟩ := x
    rw [List.map_cons, List.nodup_cons] at hm
    rw [hashInsert]
    split
    · rename_i hk
      subst hk
      rw [List.mem_cons]
      constructor
      · rintro (h | h)
        · exact .inl h
        · exact .inr ⟨fun he => hm.1 (List.mem_map.mpr ⟨e, h, he⟩), by simp [h]⟩
      · rintro (h | ⟨h, h'⟩)
        · exact .inl h
        · rcases List.mem_cons.mp h' with h' | h'
          · exact absurd (by rw [h']) h
          · exact .inr h'
    · rename_i hk
      rw [List.mem_cons, ih hm.2]
      constructor
      · rintro (h | h | ⟨h, h'⟩)
        · exact .inr ⟨by rw [h]; exact fun he => hk he.symm, by simp [h]⟩
        · exact .inl h
        · exact .inr ⟨h, by simp [h']⟩
      · rintro (h | ⟨h, h'⟩)
        · exact .inr (.inl h)
        · rcases List.mem_cons.mp h' with h' | h'
          · exact .inl h'
          · exact .inr (.inr ⟨h, h'⟩)

theorem nodup_hashInsert {m : List (String × α)} (hm : (m.map Prod.fst).Nodup) (k0 : String)
    (v0 : α) : ((hashInsert k0 v0 m).map Prod.fst).Nodup := by
  induction m with
  | nil => simp [hashInsert]
  | cons x m ih =>
    obtain ⟨k', v'⟩ := x
    have hm' := hm
    rw [List.map_cons, List.nodup_cons] at hm
    rw [hashInsert]
    split
    · rename_i hk
      subst hk
      exact hm'
    · rename_i hk
      rw [List.map_cons, List.nodup_cons]
      refine ⟨fun hc => ?_, ih hm.2⟩
      obtain ⟨e, he, hek⟩ := List.mem_map.mp hc
      rcases (mem_hashInsert hm.2 k0 v0 e).mp he with h | ⟨_, h⟩
      · rw [h] at hek; exact hk hek
      · exact hm.1 (by rw [← hek]; exact List.mem_map_of_mem h)

theorem Ascending.nodup {m : List (String × α)} (h : Ascending m) : m.Nodup :=
  List.Pairwise.imp (S := (· ≠ ·)) (fun {x y} hxy he => by
    subst he; exact bytes_lt_irrefl _ hxy) h

theorem nodup_of_keys {m : List (String × α)} (h : (m.map Prod.fst).Nodup) : m.Nodup := by
  rw [List.nodup_iff_pairwise_ne, List.pairwise_map] at h
  exact List.Pairwise.imp (S := (· ≠ ·)) (fun {x y} hxy he => by subst he; exact hxy rfl) h

/-- The hash map and the ordered map of the same entries have the same entries. -/
theorem perm_collect (es m m' : List (String × α)) (hm : (m.map Prod.fst).Nodup)
    (hm' : Ascending m') (hp : m.Perm m') :
    (es.foldl (fun m e => hashInsert e.1 e.2 m) m).Perm (insertAll m' es) := by
  induction es generalizing m m' with
  | nil => exact hp
  | cons e es ih =>
    refine ih _ _ (nodup_hashInsert hm _ _) (ascending_btreeInsert hm' _ _) ?_
    refine (List.perm_ext_iff_of_nodup (nodup_of_keys (nodup_hashInsert hm _ _))
      (Ascending.nodup (ascending_btreeInsert hm' _ _))).mpr fun x => ?_
    rw [mem_hashInsert hm, mem_btreeInsert hm', hp.mem_iff]

theorem pointwise_perm {R : α → β → Prop} {es es' : List α} (h : es'.Perm es) :
    (cs : List β) → Pointwise R es cs → ∃ cs', cs.Perm cs' ∧ Pointwise R es' cs' := by
  induction h with
  | nil => exact fun cs h => ⟨cs, List.Perm.refl _, h⟩
  | @cons x l1 l2 _ ih =>
    intro cs h
    match cs, h with
    | c :: cs, ⟨h1, h2⟩ =>
      obtain ⟨cs', hp, hw⟩ := ih cs h2
      exact ⟨c :: cs', hp.cons c, h1, hw⟩
  | swap x y l =>
    intro cs h
    match cs, h with
    | c :: d :: cs, ⟨h1, h2, h3⟩ => exact ⟨d :: c :: cs, List.Perm.swap _ _ _, h2, h1, h3⟩
  | trans _ _ ih1 ih2 =>
    intro cs h
    obtain ⟨cs', hp, hw⟩ := ih2 cs h
    obtain ⟨cs'', hp', hw'⟩ := ih1 cs' hw
    exact ⟨cs'', hp.trans hp', hw'⟩

/-! ## Leaves that check -/

theorem sim_timeDate (mode : BuildMode) (hN : N) :
    Sim t N M m (SameContent .timeDate) (Format.deDate mode)
      ((Date.de mode).bind fun d => Pure.pure (Body.date d)) := by
  intro fin bs hb
  rw [Prog.exec_bind, Format.exec_deDate_eq]
  cases h : Prog.exec t fin (Date.de mode) bs with
  | err e => exact .errors e e (.inr rfl)
  | panic k => exact .panics k
  | ok x =>
    obtain ⟨d, r⟩ := x
    simp only [Prog.next_ok]
    cases hd : d.toTime with
    | none => exact .rejected _ _ hN fun x => by simp
    | some w =>
      refine .both w (Body.date d) r ?_ (hb.suffix (Prog.exec_suffix t fin _ bs d r h))
      have := ((fromOrdinalDate_eq_some _ _ _).mp hd).1
      rw [SameContent, this]

theorem sim_offsetDateTime (hN : N) :
    Sim t N M m (SameContent .offsetDateTime) Format.deDateTime
      (DateTime.de.bind fun d => Pure.pure (Body.dateTime d)) := by
  intro fin bs hb
  rw [Prog.exec_bind, Format.exec_deDateTime_eq]
  cases h : Prog.exec t fin DateTime.de bs with
  | err e => exact .errors e e (.inr rfl)
  | panic k => exact .panics k
  | ok x =>
    obtain ⟨d, r⟩ := x
    simp only [Prog.next_ok]
    cases hd : d.toTime with
    | err e => exact .rejected _ _ hN fun x => by simp
    | panic k => exact .rejected _ _ hN fun x => by simp
    | ok w =>
      refine .both w (Body.dateTime d) r ?_ (hb.suffix (Prog.exec_suffix t fin _ bs d r h))
      rw [SameContent]
      refine ⟨d, rfl, ?_⟩
      rw [DateTime.toTime] at hd
      by_cases hin : firstSecond ≤ d.unixTimestamp.toInt ∧ d.unixTimestamp.toInt ≤ lastSecond
      · rw [fromUnix_some hin.1 hin.2] at hd
        simp only [addNanos_spec] at hd
        split at hd
        · cases hd
        · rename_i v hv
          split at hv
          · simp only [Option.some.injEq] at hv
            simp only [Outcome.ok.injEq] at hd
            subst hd
            subst hv
            rw [Time.OffsetDateTime.instant]
            simp only
            omega
          · cases hv
      · rw [fromUnix_none (by omega)] at hd
        cases hd

/-! ## Variant indices -/

theorem varintDecode_first {b : UInt8} (hb : b < 0xC0) (bs : List UInt8) :
    varintDecode 16 (b :: bs) = varintDecode 32 (b :: bs) ∧
      ∀ v r, varintDecode 16 (b :: bs) = some (v, r) → v < 16384 := by
  have hr := PrefixVarint.leadingOnes_range b
  have hb' : b.toNat < 192 := hb
  rw [varintDecode, varintDecode, extraBytes, extraBytes]
  generalize Spec.leadingOnes b = n at hr ⊢
  match n, hr with
  | 0, hr =>
    refine ⟨by simp, fun v r h => ?_⟩
    simp [leValue] at h
    omega
  | 1, hr =>
    refine ⟨by simp, fun v r h => ?_⟩
    simp only [Nat.reduceLT, Nat.reduceDiv, Nat.min_def, Nat.reduceLeDiff, if_true] at h
    split at h
    · cases h
    · match bs, h with
      | [], h => simp at *
      | x :: bs, h =>
        have := x.toNat_lt
        simp [leValue] at h
        omega
  | n + 2, hr =>
    exfalso
    have h2 := hr.2.1
    have : 2 ^ (8 - (n + 2)) ≤ 2 ^ 6 := Nat.pow_le_pow_right (by omega) (by omega)
    omega

/-- After a byte of 192 or more both readers take the next byte into the number with a weight of
at least one. -/
theorem varintDecode_large {b x : UInt8} (hb : 0xC0 ≤ b) (bs : List UInt8) {w : Nat}
    (hw : 2 ≤ w / 8) {v : Nat} {r : List UInt8} (h : varintDecode w (b :: x :: bs) = some (v, r)) :
    x.toNat ≤ v := by
  have hr := PrefixVarint.leadingOnes_range b
  have hb' : 192 ≤ b.toNat := hb
  have hlt := b.toNat_lt
  rw [varintDecode, extraBytes] at h
  generalize Spec.leadingOnes b = n at hr h
  have hn2 : 2 ≤ n := by
    have h3 := hr.2.2
    match n, h3 with
    | 0, h3 => simp at h3; omega
    | 1, h3 => simp at h3; omega
    | n + 2, _ => omega
  have hm : 2 ≤ min n (w / 8) := by omega
  generalize min n (w / 8) = m at hm h
  obtain ⟨m, rfl⟩ : ∃ k, m = k + 1 := ⟨m - 1, by omega⟩
  simp only [List.take_succ_cons, leValue] at h
  split at h
  · cases h
  · split at h
    · simp only [Option.some.injEq, Prod.mk.injEq] at h
      rw [← h.1]
      have h1 : 1 ≤ 2 ^ (7 - (m + 1)) := Nat.one_le_two_pow
      have := Nat.mul_le_mul_right (x.toNat + 256 * leValue (bs.take m)) h1
      omega
    · simp only [Option.some.injEq, Prod.mk.injEq] at h
      omega

theorem varintDecode_alone {b : UInt8} (hb : 0xC0 ≤ b) {w : Nat} (hw : 2 ≤ w / 8) :
    varintDecode w [b] = none := by
  have hr := PrefixVarint.leadingOnes_range b
  have hb' : 192 ≤ b.toNat := hb
  have hlt := b.toNat_lt
  rw [varintDecode, extraBytes]
  generalize Spec.leadingOnes b = n at hr
  have hn2 : 2 ≤ n := by
    have h3 := hr.2.2
    match n, h3 with
    | 0, h3 => simp at h3; omega
    | 1, h3 => simp at h3; omega
    | n + 2, _ => omega
  have hm : 2 ≤ min n (w / 8) := by omega
  simp only [List.length_nil]
  rw [if_pos (by omega)]

theorem compare_index {fin : Ending} {bs : List UInt8} (hb : AlikeIndexes m bs)
    (h : varintDecode 16 bs = varintDecode 32 bs) :
    Compare N M m (fun i k => i.toNat = k.toNat) (Prog.exec t fin De.deU16 bs)
      (Prog.exec t fin De.deU32 bs) := by
  rw [De.deU16, De.deU32, De.exec_u16, De.exec_u32, ← h]
  cases h : varintDecode 16 bs with
  | none => exact .errors _ _ (.inr rfl)
  | some x =>
    obtain ⟨v, r⟩ := x
    have hv := De.varintDecode_lt (by simp) h
    have hs := Prog.exec_suffix t fin (De.io PrefixVarint.decodeU16) bs (UInt16.ofNat v) r
      (by rw [De.exec_u16, h]; rfl)
    refine .both _ _ r ?_ (hb.suffix hs)
    rw [UInt16.toNat_ofNat', UInt32.toNat_ofNat']
    omega

theorem deNth_beyond (mode : BuildMode) (size : Nat) (hs : List Header) (n : Nat)
    (hn : hs.length ≤ n) : Body.deNth t mode size n hs = .done (.err .read) := by
  induction hs generalizing n with
  | nil => rw [Body.deNth]
  | cons h hs ih =>
    cases n with
    | zero => simp at hn
    | succ n => rw [Body.deNth]; exact ih n (by simpa using hn)

/-! ## All types -/

/-- What a type has to satisfy. -/
structure SimPart (env : Env) (N M : Prop) (m : Nat) (U : RTy) : Prop where
  comparable : ComparablePart U
  defaulted : DefaultedPart env U
  checks : CheckedPart U → N
  enums : ∀ name vs, U = .enum name vs → M ∧ vs.length ≤ m

theorem asUsize_w64 (h64 : t.ptr = .w64) (x : UInt64) : t.asUsize x = x.toNat := by
  have := x.toNat_lt
  rw [Target.asUsize, h64]
  exact Nat.mod_eq_of_lt this

mutual
theorem sim (h64 : t.ptr = .w64) (mode : BuildMode) (size : Nat) (env : Env) (ho : FairOrder env) :
    (T : RTy) → (h : Header) → Describes T h → (∀ U ∈ typeParts T, SimPart env N M m U) →
    Sim t N M m (SameContent T) (deTy t mode env T) (Body.de t mode size h)
  | .unit, _, .unit, _ => by rw [deTy, Body.de]; exact .pure (by simp [SameContent])
  | .bool, _, .bool, _ => by rw [deTy, Body.de]; exact .leaf (by simp [SameContent])
  | .u8, _, .u8, _ => by rw [deTy, Body.de]; exact .leaf (by simp [SameContent])
  | .u16, _, .u16, _ => by rw [deTy, Body.de]; exact .leaf (by simp [SameContent])
  | .u32, _, .u32, _ => by rw [deTy, Body.de]; exact .leaf (by simp [SameContent])
  | .u64, _, .u64, _ => by rw [deTy, Body.de]; exact .leaf (by simp [SameContent])
  | .i8, _, .i8, _ => by rw [deTy, Body.de]; exact .leaf (by simp [SameContent])
  | .i16, _, .i16, _ => by rw [deTy, Body.de]; exact .leaf (by simp [SameContent])
  | .i32, _, .i32, _ => by rw [deTy, Body.de]; exact .leaf (by simp [SameContent])
  | .i64, _, .i64, _ => by rw [deTy, Body.de]; exact .leaf (by simp [SameContent])
  | .f32, _, .f32, _ => by rw [deTy, Body.de]; exact .leaf (by simp [SameContent])
  | .f64, _, .f64, _ => by rw [deTy, Body.de]; exact .leaf (by simp [SameContent])
  | .bigUint, _, .bigUint, _ => by rw [deTy, Body.de]; exact .leaf (by simp [SameContent])
  | .bigInt, _, .bigInt, _ => by rw [deTy, Body.de]; exact .leaf (by simp [SameContent])
  | .bigDecimal, _, .bigDecimal, _ => by rw [deTy, Body.de]; exact .leaf (by simp [SameContent])
  | .string, _, .string, _ => by rw [deTy, Body.de]; exact .leaf (by simp [SameContent])
  | .byteBuf, _, .byteBuf, _ => by rw [deTy, Body.de]; exact .leaf (by simp [SameContent])
  | .date, _, .date, _ => by rw [deTy, Body.de]; exact .leaf (by simp [SameContent])
  | .dateTime, _, .dateTime, _ => by rw [deTy, Body.de]; exact .leaf (by simp [SameContent])
  | .numBigUint, _, .numBigUint, _ => by
    rw [deTy, Body.de]
    exact .conv fun bs => by simp [SameContent, Num.fromBytesLe_eq]
  | .numBigInt, _, .numBigInt, _ => by
    rw [deTy, Body.de]
    exact .conv fun bs => by simp [SameContent, Num.fromSignedBytesLe_eq]
  | .numBigDecimal, _, .numBigDecimal, hp => ((hp _ (self_mem_typeParts _)).comparable).elim
  | .str, _, .str, hp => ((hp _ (self_mem_typeParts _)).comparable.1).elim
  | .bytes, _, .bytes, hp => ((hp _ (self_mem_typeParts _)).comparable.1).elim
  | .timeDate, _, .timeDate, hp => by
    rw [deTy, Body.de]
    exact sim_timeDate mode ((hp _ (self_mem_typeParts _)).checks trivial)
  | .offsetDateTime, _, .offsetDateTime, hp => by
    rw [deTy, Body.de]
    exact sim_offsetDateTime ((hp _ (self_mem_typeParts _)).checks trivial)
  | .option T, _, .option _ h hd, hp => by
    have ih := sim h64 mode size env ho T h hd fun U hU => hp U (by simp [typeParts, hU])
    rw [deTy, Body.de]
    refine (Sim.refl De.deBool).bind fun a b hab => ?_
    subst hab
    cases a with
    | false => exact Sim.pure (by simp [SameContent])
    | true => exact ih.bind fun v c hc => Sim.pure (by rw [SameContent]; exact ⟨c, rfl, hc⟩)
  | .vec T, _, .vec _ h hd, hp => by
    have ih := sim h64 mode size env ho T h hd fun U hU => hp U (by simp [typeParts, hU])
    rw [deTy, Body.de]
    refine (Sim.refl De.deU64).bind fun a b hab => ?_
    subst hab
    rw [asUsize_w64 h64]
    exact ((ih.times _).map fun v c hc => by rw [SameContent]; exact ⟨c, rfl, hc⟩).alloc
  | .btreeMap T, _, .btreeMap _ h hd, hp => by
    have ih := sim h64 mode size env ho T h hd fun U hU => hp U (by simp [typeParts, hU])
    rw [deTy, Body.de]
    refine (Sim.refl De.deU64).bind fun a b hab => ?_
    subst hab
    rw [asUsize_w64 h64]
    refine Sim.map (R := fun es cs => Ascending cs ∧
      Pointwise (fun e c => e.1 = c.1 ∧ SameContent T e.2 c.2) es cs) (Sim.insertLoop ?_)
      fun es cs hc => by rw [SameContent]; exact ⟨cs, rfl, hc⟩
    exact (ih.entries _).bind fun es cs hc => Sim.pure
      ⟨ascending_insertAll cs List.Pairwise.nil, pointwise_collectBTree es cs hc⟩
  | .hashMap T, _, .hashMap _ h hd, hp => by
    have ih := sim h64 mode size env ho T h hd fun U hU => hp U (by simp [typeParts, hU])
    rw [deTy, Body.de]
    refine (Sim.refl De.deU64).bind fun a b hab => ?_
    subst hab
    rw [asUsize_w64 h64]
    refine Sim.map (R := fun es cs => Ascending cs ∧ ∃ cs', cs.Perm cs' ∧
      Pointwise (fun e c => e.1 = c.1 ∧ SameContent T e.2 c.2) es cs') (Sim.insertLoop ?_)
      fun es cs ⟨h1, cs', h2⟩ => by rw [SameContent]; exact ⟨cs, cs', rfl, h1, h2⟩
    refine (ih.entries _).bind fun es cs hc => Sim.pure
      ⟨ascending_insertAll cs List.Pairwise.nil, ?_⟩
    obtain ⟨cs', h1, h2⟩ := pointwise_perm (ho (collectHash es)) _ (pointwise_collectHash es cs hc)
    exact ⟨cs', (perm_collect cs [] [] (by simp) List.Pairwise.nil (List.Perm.refl _)).symm.trans h1,
      h2⟩
  | .tuple Ts, _, .tuple _ hs _ _ hd, hp => by
    rw [deTy, Body.de]
    exact ((sim_tuple h64 mode size env ho Ts hs hd fun U hU => hp U (by simp [typeParts, hU])).map
      fun v c hc => by rw [SameContent]; exact ⟨c, rfl, hc⟩).alloc
  | .struct name (.named fs), _, .struct _ _ hs _ hd, hp => by
    have hsym : SymmetricFields fs := (hp _ (self_mem_typeParts _)).comparable.2.2
    rw [deTy, Body.de]
    exact ((sim_fields h64 mode size env ho fs hs hd (fun f hf => (hsym f hf).1)
      (hp _ (self_mem_typeParts _)).defaulted fun U hU => hp U (by simp [typeParts, hU])).map
      fun v c hc => by rw [SameContent]; exact ⟨c, rfl, hc⟩).alloc
  | .struct name (.unnamed fs), _, .struct _ _ hs _ hd, hp => by
    have hsym := (hp _ (self_mem_typeParts _)).comparable.2.2
    have hf := sim_fields h64 mode size env ho fs hs hd (fun f hf => (hsym.1 f hf).1)
      (hp _ (self_mem_typeParts _)).defaulted fun U hU => hp U (by simp [typeParts, hU])
    rw [Body.de]
    refine Sim.alloc (Sim.map (R := SameFields fs) ?_ fun v c hc => by
      rw [SameContent]; exact ⟨c, rfl, hc⟩)
    match fs, hsym, hf with
    | [], _, hf => rw [deTy]; rw [deFields] at hf; exact hf
    | [.mk attrs n T], hsym, hf =>
      have hns : ¬ SkippedDe attrs := fun hc => hsym.2 rfl _ List.mem_cons_self
        ((hsym.1 _ List.mem_cons_self).1.mpr hc)
      rw [deFields, if_neg (by rw [deSkips_iff]; exact hns)] at hf
      rw [deTy]
      exact hf
    | f :: g :: fs, _, hf => rw [deTy]; exact hf
  | .struct name .unit, _, .struct _ _ hs _ hd, hp => by
    cases hd
    rw [deTy, Body.de, Body.deAll]
    exact Sim.alloc (Sim.pure (by simp [SameContent]))
  | .enum name vs, _, .enum _ _ hs _ hd, hp => by
    obtain ⟨hM, hm⟩ := (hp _ (self_mem_typeParts _)).enums name vs rfl
    have hc := (hp _ (self_mem_typeParts _)).comparable
    have hplain : ∀ v ∈ vs, ¬ Skipped (variantAttrs v) ∧
      ∀ f ∈ Spec.variantFields v, ¬ Skipped (fieldAttrs f) ∧ ¬ Conditional (fieldAttrs f) := hc.2.1
    have hsym : vs.length ≤ 16384 ∧ ∀ v ∈ vs, ¬ Skipped (variantAttrs v) ∧
      ¬ SkippedDe (variantAttrs v) ∧ SymmetricFields (Spec.variantFields v) := hc.2.2
    rw [List.filter_eq_self.mpr fun v hvm => decide_eq_true (hplain v hvm).1] at hd
    rw [deTy, Body.de]
    intro fin bs hb
    rcases hb bs (List.suffix_refl bs) with h0 | ⟨h1, h2⟩
    rotate_left
    · rw [Prog.bind_eq, Prog.exec_bind, De.deU16, De.exec_u16, Prog.bind_eq, Prog.exec_bind, De.deU32,
        De.exec_u32]
      have hl : hs.length = vs.length := by simpa using payloads_length hd
      have e1 : ∃ e, Prog.next (De.ofDec UInt16.ofNat (varintDecode 16 bs)) (fun i r =>
          Prog.exec t fin (deVariant t mode env i.toNat i.toNat vs) r) = .err e := by
        cases hx : varintDecode 16 bs with
        | none => exact ⟨_, rfl⟩
        | some x =>
          have hv := De.varintDecode_lt (by simp) hx
          have := h1 _ _ hx
          have := readCount_le vs
          refine ⟨_, deVariant_beyond t mode env fin vs _ x.2 ?_⟩
          rw [UInt16.toNat_ofNat']
          omega
      have e2 : ∃ e, Prog.next (De.ofDec UInt32.ofNat (varintDecode 32 bs)) (fun k r =>
          Prog.exec t fin ((Body.deNth t mode size k.toNat hs).bind fun c =>
            Pure.pure (Body.enum k c)) r) = .err e := by
        cases hx : varintDecode 32 bs with
        | none => exact ⟨_, rfl⟩
        | some x =>
          have hv := De.varintDecode_lt (by simp) hx
          have := h2 _ _ hx
          refine ⟨.read, ?_⟩
          show Prog.exec t fin ((Body.deNth t mode size (UInt32.ofNat x.1).toNat hs).bind _) x.2 = _
          rw [deNth_beyond mode size hs _ (by rw [UInt32.toNat_ofNat']; omega), Prog.exec_bind]
          rfl
      obtain ⟨e, e1⟩ := e1
      obtain ⟨e', e2⟩ := e2
      exact e1 ▸ e2 ▸ .errors e e' (.inl hM)
    rw [Prog.bind_eq, Prog.exec_bind, Prog.bind_eq, Prog.exec_bind]
    refine (compare_index hb h0).bind (fun i k r hik hr => ?_)
    rw [hik]
    exact ((sim_variant h64 mode size env ho vs hs hd hplain hsym.2
      (fun U hU => hp U (by simp [typeParts, hU])) hM 0 k.toNat).map fun v c hvc => by
        rw [SameContent]; exact hvc k (by omega)) fin r hr
theorem sim_tuple (h64 : t.ptr = .w64) (mode : BuildMode) (size : Nat) (env : Env)
    (ho : FairOrder env) : (Ts : List RTy) → (hs : List Header) → DescribesAll Ts hs →
    (∀ U ∈ typePartsAll Ts, SimPart env N M m U) →
    Sim t N M m (SameMembers Ts) (deTuple t mode env Ts) (Body.deAll t mode size hs)
  | [], _, .nil, _ => by rw [deTuple, Body.deAll]; exact .pure (by simp [SameMembers])
  | T :: Ts, _, .cons _ _ h hs hd hds, hp => by
    rw [deTuple, Body.deAll]
    exact (sim h64 mode size env ho T h hd fun U hU => hp U (by simp [typePartsAll, hU])).bind
      fun v c hc => (sim_tuple h64 mode size env ho Ts hs hds fun U hU => hp U
        (by simp [typePartsAll, hU])).bind fun vs cs hcs => Sim.pure (by
          rw [SameMembers]; exact ⟨c, cs, rfl, hc, hcs⟩)
theorem sim_fields (h64 : t.ptr = .w64) (mode : BuildMode) (size : Nat) (env : Env)
    (ho : FairOrder env) : (fs : List RField) → (hs : List Header) →
    DescribesAll (serializedTypes fs) hs →
    (∀ f ∈ fs, Skipped (fieldAttrs f) ↔ SkippedDe (fieldAttrs f)) → DefaultedFields env fs →
    (∀ U ∈ typePartsFields fs, SimPart env N M m U) →
    Sim t N M m (SameFields fs) (deFields t mode env fs) (Body.deAll t mode size hs)
  | [], _, .nil, _, _, _ => by rw [deFields, Body.deAll]; exact .pure (by simp [SameFields])
  | .mk attrs n T :: fs, hs, hd, hs', hf, hp => by
    have hrest := fun hs hd => sim_fields h64 mode size env ho fs hs hd
      (fun f hm => hs' f (List.mem_cons_of_mem _ hm)) (fun f hm => hf f (List.mem_cons_of_mem _ hm))
      (fun U hU => hp U (by simp [typePartsFields, hU]))
    have hiff := hs' _ List.mem_cons_self
    simp only [fieldAttrs] at hiff
    rw [deFields]
    by_cases hsk : Skipped attrs
    · rw [if_pos ((deSkips_iff attrs).mpr (hiff.mp hsk))]
      obtain ⟨v, hv⟩ : ∃ v, env.dflt attrs T = some v := hf _ List.mem_cons_self (hiff.mp hsk)
      rw [hv]
      have hd' : DescribesAll (serializedTypes fs) hs := by
        rw [serializedTypes, List.filter_cons_of_neg (by simp [fieldAttrs, hsk])] at hd
        exact hd
      have h0 : Sim t N M m (SameFields (.mk attrs n T :: fs))
          ((deFields t mode env fs).bind fun vs => Pure.pure (v, vs))
          ((Body.deAll t mode size hs).bind fun cs => Pure.pure cs) :=
        (hrest hs hd').bind fun vs cs hcs => Sim.pure (by rw [SameFields, if_pos hsk]; exact hcs)
      intro fin bs hb
      have := h0 fin bs hb
      rw [Prog.exec_bind t fin (Body.deAll t mode size hs)] at this
      revert this
      cases Prog.exec t fin (Body.deAll t mode size hs) bs <;> exact fun h => h
    · rw [if_neg (by rw [deSkips_iff, ← hiff]; exact hsk)]
      rw [serializedTypes, List.filter_cons_of_pos (by simp [fieldAttrs, hsk]), List.map_cons] at hd
      match hs, hd with
      | h :: hs, .cons _ _ _ _ hd hds =>
        rw [Body.deAll]
        exact (sim h64 mode size env ho T h hd fun U hU => hp U
          (by simp [typePartsFields, hsk, hU])).bind
          fun v c hc => (hrest hs hds).bind fun vs cs hcs => Sim.pure (by
            rw [SameFields, if_neg hsk]; exact ⟨c, cs, rfl, hc, hcs⟩)
theorem sim_payload (h64 : t.ptr = .w64) (mode : BuildMode) (size : Nat) (env : Env)
    (ho : FairOrder env) : (fs : List RField) → (h : Header) →
    DescribesPayload (fs.map fieldType) h → (∀ f ∈ fs, ¬ Skipped (fieldAttrs f)) →
    (∀ f ∈ fs, Skipped (fieldAttrs f) ↔ SkippedDe (fieldAttrs f)) →
    (∀ U ∈ typePartsFields fs, SimPart env N M m U) →
    Sim t N M m (SamePayload fs) (deFields t mode env fs) (Body.de t mode size h)
  | [], h, hd, _, _, _ => by
    have hu : h = .unit := describesPayload_unique hd .none
    subst hu
    rw [deFields, Body.de]
    exact .pure (by rw [SamePayload])
  | [.mk attrs n T], h, hd, hns, hs, hp => by
    have hsk : ¬ Skipped attrs := hns _ List.mem_cons_self
    have hiff : Skipped attrs ↔ SkippedDe attrs := hs _ List.mem_cons_self
    have hT : Describes T h := by
      cases hd with
      | one _ _ hd => exact hd
      | many _ _ h2 _ => simp at h2
    rw [deFields, if_neg (by rw [deSkips_iff, ← hiff]; exact hsk), deFields]
    exact (sim h64 mode size env ho T h hT fun U hU => hp U
      (by simp [typePartsFields, hsk, hU])).mapLeft fun v c hc => by rw [SamePayload]; exact hc
  | f :: g :: fs, h, hd, hns, hs, hp => by
    cases hd with
    | many _ hs' _ hd =>
      rw [Body.de]
      rw [← serializedTypes_all hns] at hd
      exact ((sim_fields h64 mode size env ho (f :: g :: fs) hs' hd hs
        (fun x hx hd => absurd ((hs x hx).mpr hd) (hns x hx)) hp).map
        fun v c hc => by rw [SamePayload]; exact ⟨c, rfl, hc⟩).alloc
theorem sim_variant {idx : Nat} (h64 : t.ptr = .w64) (mode : BuildMode) (size : Nat) (env : Env)
    (ho : FairOrder env) : (vs : List RVariant) → (hs : List Header) →
    DescribesPayloads (vs.map fun v => (Spec.variantFields v).map fieldType) hs →
    (∀ v ∈ vs, ¬ Skipped (variantAttrs v) ∧
      ∀ f ∈ Spec.variantFields v, ¬ Skipped (fieldAttrs f) ∧ ¬ Conditional (fieldAttrs f)) →
    (∀ v ∈ vs, ¬ Skipped (variantAttrs v) ∧ ¬ SkippedDe (variantAttrs v) ∧
      SymmetricFields (Spec.variantFields v)) →
    (∀ U ∈ typePartsVariants vs, SimPart env N M m U) → (hM : M) → (i n : Nat) →
    Sim t N M m (fun v c => ∀ k : UInt32, k.toNat = i + n → SameVariant i vs v (.enum k c))
      (deVariant t mode env idx n vs) (Body.deNth t mode size n hs)
  | [], _, .nil, _, _, _, hM, i, n => by
    rw [deVariant, Body.deNth]
    exact fun _ _ _ => .errors _ _ (.inl hM)
  | .mk attrs vn fields :: vs, _, .cons _ _ h hs hd hds, hns, hsy, hp, hM, i, 0 => by
    have hsk : ¬ SkippedDe attrs := (hsy _ List.mem_cons_self).2.1
    have h1 : ∀ f ∈ declared fields, ¬ Skipped (fieldAttrs f) := fun f hf =>
      ((hns _ List.mem_cons_self).2 f hf).1
    have h2 : ∀ f ∈ declared fields, Skipped (fieldAttrs f) ↔ SkippedDe (fieldAttrs f) := fun f hf =>
      ((hsy _ List.mem_cons_self).2.2 f hf).1
    rw [deVariant_zero t mode env hsk, Body.deNth]
    cases fields with
    | named fs =>
      rw [dePayload]
      exact (sim_payload h64 mode size env ho fs h hd h1 h2 fun U hU => hp U
        (by simp [typePartsVariants, hU])).mapLeft fun v c hc k hk => by
          rw [SameVariant]; exact ⟨k, c, rfl, hk, hc⟩
    | unnamed fs =>
      rw [dePayload]
      exact (sim_payload h64 mode size env ho fs h hd h1 h2 fun U hU => hp U
        (by simp [typePartsVariants, hU])).mapLeft fun v c hc k hk => by
          rw [SameVariant]; exact ⟨k, c, rfl, hk, hc⟩
    | unit =>
      have hu : h = .unit := describesPayload_unique hd .none
      subst hu
      rw [dePayload, Body.de]
      exact Sim.pure fun k hk => by rw [SameVariant]; exact ⟨k, _, rfl, hk, rfl⟩
  | .mk attrs vn fields :: vs, _, .cons _ _ h hs hd hds, hns, hsy, hp, hM, i, n + 1 => by
    have hsk : ¬ SkippedDe attrs := (hsy _ List.mem_cons_self).2.1
    rw [deVariant_succ t mode env n hsk, Body.deNth]
    exact (sim_variant h64 mode size env ho vs hs hds (fun v hv => hns v (by simp [hv]))
      (fun v hv => hsy v (by simp [hv]))
      (fun U hU => hp U (by cases fields <;> simp [typePartsVariants, hU])) hM (i + 1) n).mapLeft
      fun v c hc k hk => by rw [SameVariant]; exact hc k (by omega)
end

end Derive
end Dlhn
