import Verif.Spec.Catch
import Verif.Proof.After
import Verif.Proof.Visit
/-! # Facts about implementations that catch errors -/
namespace Dlhn

open De PrefixVarint Spec

/-! ## Implementations that pass errors on -/

/-- Running decoders one after the other is running their sequence. -/
structure Lawful {σ : Type} (r : Runner σ) : Prop where
  done : ∀ {α : Type} (o : Outcome DeErr α) (s : σ), r (.done o) s = (o, s)
  bind : ∀ {α β : Type} (p : Prog DeErr α) (f : α → Prog DeErr β) (s : σ),
    r (Prog.bind p f) s = match r p s with
      | (.ok a, s') => r (f a) s'
      | (.err e, s') => (.err e, s')
      | (.panic q, s') => (.panic q, s')

theorem lawful_script (t : Target) (size : Nat → Nat) :
    Lawful (fun {_} p s => Prog.runScriptAt t size p s) where
  done o s := by rw [Prog.runScriptAt]
  bind p f s := by
    rw [Prog.runScriptAt_bind]
    cases Prog.runScriptAt t size p s with
    | mk o s' => cases o <;> rfl

theorem lawful_exec (t : Target) : Lawful (fun {_} p bs => Prog.execAt t p bs) where
  done o s := by rw [Prog.execAt]
  bind p f s := by
    rw [Prog.execAt_bind]
    cases Prog.execAt t p s with
    | mk o s' => cases o <;> rfl

section
variable {σ : Type} {r : Runner σ} (hr : Lawful @r)
include hr

theorem Lawful.thenOk {α β : Type} (p : Prog DeErr β) (f : β → Prog DeErr α) (s : σ)
    (k : β → σ → Outcome DeErr α × σ) (h : ∀ b s, k b s = r (f b) s) :
    Dlhn.thenOk (r p s) k = r (Prog.bind p f) s := by
  rw [hr.bind]
  cases r p s with
  | mk o s' => cases o <;> simp [Dlhn.thenOk, thenWith, h]

theorem Lawful.thenWith {α β : Type} (p : Prog DeErr β) (f : β → Prog DeErr α) (s : σ)
    (k : Except DeErr β → σ → Outcome DeErr α × σ) (h : ∀ b s, k (.ok b) s = r (f b) s)
    (he : ∀ e s, k (.error e) s = (.err e, s)) :
    Dlhn.thenWith (r p s) k = r (Prog.bind p f) s := by
  rw [hr.bind]
  cases r p s with
  | mk o s' => cases o <;> simp [Dlhn.thenWith, h, he]

theorem Lawful.returnWith {α : Type} (x : Except DeErr α) (s : σ) :
    Dlhn.returnWith x s = r (ofExcept x) s := by
  cases x <;> rw [ofExcept, hr.done] <;> rfl

mutual
theorem run_passing (t : Target) : {α : Type} → (i : Impl α) → (s : σ) →
    (passing i).run t @r s = r (i.run t) s
  | _, .ok a, s => by rw [passing, CatchImpl.run, Impl.run, hr.done]
  | _, .error e, s => by rw [passing, CatchImpl.run, Impl.run, hr.done]
  | _, .andThen p k, s => by
    rw [passing, CatchImpl.run, Impl.run, run_passing t p s]
    exact hr.thenWith _ _ _ _ (fun b s => run_passing t (k b) s)
      fun e s => by simp only [CatchImpl.run]
  | _, .option onNone onSome, s => by
    rw [passing, CatchImpl.run, Impl.run]
    refine hr.thenOk _ _ _ _ fun b s => ?_
    split
    · exact run_passing t onSome s
    · exact run_passing t onNone s
  | _, .newtypeStruct name visit, s => by
    rw [passing, CatchImpl.run, Impl.run]; exact run_passing t visit s
  | _, .seq visit, s => by
    rw [passing, CatchImpl.run, Impl.run]
    exact hr.thenOk _ _ _ _ fun b s => run_passingSeq t (visit _) _ s
  | _, .tuple len visit, s => by
    rw [passing, CatchImpl.run, Impl.run]; exact run_passingSeq t (visit len) _ s
  | _, .tupleStruct name len visit, s => by
    rw [passing, CatchImpl.run, Impl.run]; exact run_passingSeq t (visit len) _ s
  | _, .map visit, s => by
    rw [passing, CatchImpl.run, Impl.run]
    exact hr.thenOk _ _ _ _ fun b s => run_passingMap t (visit _) _ s
  | _, .struct name fields visit, s => by
    rw [passing, CatchImpl.run, Impl.run]; exact run_passingFields t visit _ s
  | _, .enum name variants seed visit, s => by
    rw [passing, CatchImpl.run, Impl.run, run_passing t seed s]
    exact hr.thenWith _ _ _ _ (fun b s => run_passingVariant t (visit b) s)
      fun e s => rfl
  | _, .humanReadable _, s => by simp only [passing, CatchImpl.run]
  | _, .any, s => by simp only [passing, CatchImpl.run]
  | _, .str, s => by simp only [passing, CatchImpl.run]
  | _, .bytes, s => by simp only [passing, CatchImpl.run]
  | _, .ignoredAny, s => by simp only [passing, CatchImpl.run]
  | _, .bool, s => by simp only [passing, CatchImpl.run]
  | _, .i8, s => by simp only [passing, CatchImpl.run]
  | _, .i16, s => by simp only [passing, CatchImpl.run]
  | _, .i32, s => by simp only [passing, CatchImpl.run]
  | _, .i64, s => by simp only [passing, CatchImpl.run]
  | _, .i128, s => by simp only [passing, CatchImpl.run]
  | _, .u8, s => by simp only [passing, CatchImpl.run]
  | _, .u16, s => by simp only [passing, CatchImpl.run]
  | _, .u32, s => by simp only [passing, CatchImpl.run]
  | _, .u64, s => by simp only [passing, CatchImpl.run]
  | _, .u128, s => by simp only [passing, CatchImpl.run]
  | _, .f32, s => by simp only [passing, CatchImpl.run]
  | _, .f64, s => by simp only [passing, CatchImpl.run]
  | _, .char, s => by simp only [passing, CatchImpl.run]
  | _, .string, s => by simp only [passing, CatchImpl.run]
  | _, .byteBuf, s => by simp only [passing, CatchImpl.run]
  | _, .identifier, s => by simp only [passing, CatchImpl.run]
  | _, .unit, s => by simp only [passing, CatchImpl.run]
  | _, .unitStruct _, s => by simp only [passing, CatchImpl.run]
theorem run_passingSeq (t : Target) : {α : Type} → (i : SeqImpl α) → (count : Nat) → (s : σ) →
    (passingSeq i).run t @r count s = r (i.run t count) s
  | _, .ok a, count, s => by rw [passingSeq, CatchSeq.run, SeqImpl.run, hr.done]
  | _, .error e, count, s => by rw [passingSeq, CatchSeq.run, SeqImpl.run, hr.done]
  | _, .next seed k, count, s => by
    rw [passingSeq, CatchSeq.run, SeqImpl.run]
    split
    · rw [run_passing t seed s]
      exact hr.thenWith _ _ _ _ (fun b s => run_passingSeq t (k (some b)) _ s)
        fun e s => by simp only [Except.map, CatchSeq.run]
    · exact run_passingSeq t (k none) _ s
theorem run_passingMap (t : Target) : {α : Type} → (i : MapImpl α) → (count : Nat) → (s : σ) →
    (passingMap i).run t @r count s = r (i.run t count) s
  | _, .ok a, count, s => by rw [passingMap, CatchMap.run, MapImpl.run, hr.done]
  | _, .error e, count, s => by rw [passingMap, CatchMap.run, MapImpl.run, hr.done]
  | _, .key seed k, count, s => by
    rw [passingMap, CatchMap.run, MapImpl.run]
    split
    · rw [run_passing t seed s]
      exact hr.thenWith _ _ _ _ (fun b s => run_passingMap t (k (some b)) _ s)
        fun e s => by simp only [Except.map, CatchMap.run]
    · exact run_passingMap t (k none) _ s
  | _, .value seed k, count, s => by
    rw [passingMap, CatchMap.run, MapImpl.run, run_passing t seed s]
    exact hr.thenWith _ _ _ _ (fun b s => run_passingMap t (k b) _ s)
      fun e s => by simp only [CatchMap.run]
theorem run_passingFields (t : Target) : {α : Type} → (i : FieldsImpl α) → (keys : List String) →
    (s : σ) → (passingFields i).run t @r keys s = r (i.run t keys) s
  | _, .ok a, keys, s => by rw [passingFields, CatchFields.run, FieldsImpl.run, hr.done]
  | _, .error e, keys, s => by rw [passingFields, CatchFields.run, FieldsImpl.run, hr.done]
  | _, .key k, [], s => by
    rw [passingFields, CatchFields.run, FieldsImpl.run]; exact run_passingFields t (k none) _ s
  | _, .key k, name :: keys, s => by
    rw [passingFields, CatchFields.run, FieldsImpl.run]
    exact run_passingFields t (k (some name)) _ s
  | _, .value seed k, keys, s => by
    rw [passingFields, CatchFields.run, FieldsImpl.run, run_passing t seed s]
    exact hr.thenWith _ _ _ _ (fun b s => run_passingFields t (k b) _ s)
      fun e s => by simp only [CatchFields.run]
theorem run_passingVariant (t : Target) : {α : Type} → (i : VariantImpl α) → (s : σ) →
    (passingVariant i).run t @r s = r (i.run t) s
  | _, .ok a, s => by rw [passingVariant, CatchVariant.run, VariantImpl.run, hr.done]
  | _, .error e, s => by rw [passingVariant, CatchVariant.run, VariantImpl.run, hr.done]
  | _, .unit x, s => by
    rw [passingVariant, CatchVariant.run, VariantImpl.run]; exact hr.returnWith x s
  | _, .newtype seed k, s => by
    rw [passingVariant, CatchVariant.run, VariantImpl.run, run_passing t seed s]
    exact hr.thenWith _ _ _ _ (fun b s => hr.returnWith (k b) s) fun e s => rfl
  | _, .tuple len visit k, s => by
    rw [passingVariant, CatchVariant.run, VariantImpl.run, run_passingSeq t (visit len) _ s]
    exact hr.thenWith _ _ _ _ (fun b s => hr.returnWith (k b) s) fun e s => rfl
  | _, .struct fields visit k, s => by
    rw [passingVariant, CatchVariant.run, VariantImpl.run, run_passingFields t visit _ s]
    exact hr.thenWith _ _ _ _ (fun b s => hr.returnWith (k b) s) fun e s => rfl
end
end

/-! ## Two readers side by side -/

/-- Outcomes are equal and the readers stay related. -/
def Related {σ τ α : Type} (R : σ → τ → Prop) (x : Outcome DeErr α × σ)
    (y : Outcome DeErr α × τ) : Prop :=
  x.1 = y.1 ∧ R x.2 y.2

section
variable {σ τ : Type} {R : σ → τ → Prop}

theorem related_thenWith {α β : Type} {x : Outcome DeErr β × σ} {y : Outcome DeErr β × τ}
    (h : Related R x y) {k : Except DeErr β → σ → Outcome DeErr α × σ}
    {k' : Except DeErr β → τ → Outcome DeErr α × τ}
    (hk : ∀ b s s', R s s' → Related R (k b s) (k' b s')) :
    Related R (thenWith x k) (thenWith y k') := by
  obtain ⟨o, s⟩ := x
  obtain ⟨o', s'⟩ := y
  obtain ⟨h1, h2⟩ := h
  simp only at h1 h2
  subst h1
  cases o with
  | ok b => exact hk _ _ _ h2
  | err e => exact hk _ _ _ h2
  | panic q => exact ⟨rfl, h2⟩

theorem related_thenOk {α β : Type} {x : Outcome DeErr β × σ} {y : Outcome DeErr β × τ}
    (h : Related R x y) {k : β → σ → Outcome DeErr α × σ} {k' : β → τ → Outcome DeErr α × τ}
    (hk : ∀ b s s', R s s' → Related R (k b s) (k' b s')) :
    Related R (thenOk x k) (thenOk y k') := by
  refine related_thenWith h fun b s s' hs => ?_
  cases b with
  | ok b => exact hk _ _ _ hs
  | error e => exact ⟨rfl, hs⟩

theorem related_returnWith {α : Type} (x : Except DeErr α) {s : σ} {s' : τ} (h : R s s') :
    Related R (returnWith x s) (returnWith x s') := by
  cases x <;> exact ⟨rfl, h⟩

variable {t : Target} {r : Runner σ} {r' : Runner τ}

mutual
theorem related_run
    (hi : ∀ {α : Type} (i : Impl α) s s', R s s' → Related R (r (i.run t) s) (r' (i.run t) s')) :
    {α : Type} → (i : CatchImpl α) → (s : σ) → (s' : τ) → R s s' →
    Related R (i.run t @r s) (i.run t @r' s')
  | _, .ok a, s, s', h => by rw [CatchImpl.run, CatchImpl.run]; exact ⟨rfl, h⟩
  | _, .error e, s, s', h => by rw [CatchImpl.run, CatchImpl.run]; exact ⟨rfl, h⟩
  | _, .plain i, s, s', h => by rw [CatchImpl.run, CatchImpl.run]; exact hi i s s' h
  | _, .andThen p k, s, s', h => by
    rw [CatchImpl.run, CatchImpl.run]
    exact related_thenWith (related_run hi p s s' h) fun b s s' h => related_run hi (k b) s s' h
  | _, .option onNone onSome, s, s', h => by
    rw [CatchImpl.run, CatchImpl.run]
    have h0 := hi .bool s s' h
    rw [Impl.run] at h0
    refine related_thenOk h0 fun b s s' h => ?_
    split
    · exact related_run hi onSome s s' h
    · exact related_run hi onNone s s' h
  | _, .newtypeStruct _ visit, s, s', h => by
    rw [CatchImpl.run, CatchImpl.run]; exact related_run hi visit s s' h
  | _, .seq visit, s, s', h => by
    rw [CatchImpl.run, CatchImpl.run]
    have h0 := hi .u64 s s' h
    rw [Impl.run, deU64] at h0
    exact related_thenOk h0 fun b s s' h => related_runSeq hi (visit _) _ s s' h
  | _, .tuple len visit, s, s', h => by
    rw [CatchImpl.run, CatchImpl.run]; exact related_runSeq hi (visit len) _ s s' h
  | _, .tupleStruct _ len visit, s, s', h => by
    rw [CatchImpl.run, CatchImpl.run]; exact related_runSeq hi (visit len) _ s s' h
  | _, .map visit, s, s', h => by
    rw [CatchImpl.run, CatchImpl.run]
    have h0 := hi .u64 s s' h
    rw [Impl.run, deU64] at h0
    exact related_thenOk h0 fun b s s' h => related_runMap hi (visit _) _ s s' h
  | _, .struct _ fields visit, s, s', h => by
    rw [CatchImpl.run, CatchImpl.run]; exact related_runFields hi visit _ s s' h
  | _, .enum _ _ seed visit onErr, s, s', h => by
    rw [CatchImpl.run, CatchImpl.run]
    refine related_thenWith (related_run hi seed s s' h) fun b s s' h => ?_
    cases b with
    | ok b => exact related_runVariant hi (visit b) s s' h
    | error e => exact related_returnWith _ h
theorem related_runSeq
    (hi : ∀ {α : Type} (i : Impl α) s s', R s s' → Related R (r (i.run t) s) (r' (i.run t) s')) :
    {α : Type} → (i : CatchSeq α) → (count : Nat) → (s : σ) → (s' : τ) → R s s' →
    Related R (i.run t @r count s) (i.run t @r' count s')
  | _, .ok a, _, s, s', h => by rw [CatchSeq.run, CatchSeq.run]; exact ⟨rfl, h⟩
  | _, .error e, _, s, s', h => by rw [CatchSeq.run, CatchSeq.run]; exact ⟨rfl, h⟩
  | _, .next seed k, count, s, s', h => by
    rw [CatchSeq.run, CatchSeq.run]
    split
    · exact related_thenWith (related_run hi seed s s' h) fun b s s' h =>
        related_runSeq hi (k _) _ s s' h
    · exact related_runSeq hi (k _) _ s s' h
theorem related_runMap
    (hi : ∀ {α : Type} (i : Impl α) s s', R s s' → Related R (r (i.run t) s) (r' (i.run t) s')) :
    {α : Type} → (i : CatchMap α) → (count : Nat) → (s : σ) → (s' : τ) → R s s' →
    Related R (i.run t @r count s) (i.run t @r' count s')
  | _, .ok a, _, s, s', h => by rw [CatchMap.run, CatchMap.run]; exact ⟨rfl, h⟩
  | _, .error e, _, s, s', h => by rw [CatchMap.run, CatchMap.run]; exact ⟨rfl, h⟩
  | _, .key seed k, count, s, s', h => by
    rw [CatchMap.run, CatchMap.run]
    split
    · exact related_thenWith (related_run hi seed s s' h) fun b s s' h =>
        related_runMap hi (k _) _ s s' h
    · exact related_runMap hi (k _) _ s s' h
  | _, .value seed k, count, s, s', h => by
    rw [CatchMap.run, CatchMap.run]
    exact related_thenWith (related_run hi seed s s' h) fun b s s' h =>
      related_runMap hi (k _) _ s s' h
theorem related_runFields
    (hi : ∀ {α : Type} (i : Impl α) s s', R s s' → Related R (r (i.run t) s) (r' (i.run t) s')) :
    {α : Type} → (i : CatchFields α) → (keys : List String) → (s : σ) → (s' : τ) → R s s' →
    Related R (i.run t @r keys s) (i.run t @r' keys s')
  | _, .ok a, _, s, s', h => by rw [CatchFields.run, CatchFields.run]; exact ⟨rfl, h⟩
  | _, .error e, _, s, s', h => by rw [CatchFields.run, CatchFields.run]; exact ⟨rfl, h⟩
  | _, .key k, [], s, s', h => by
    rw [CatchFields.run, CatchFields.run]; exact related_runFields hi (k none) _ s s' h
  | _, .key k, name :: keys, s, s', h => by
    rw [CatchFields.run, CatchFields.run]; exact related_runFields hi (k (some name)) _ s s' h
  | _, .value seed k, keys, s, s', h => by
    rw [CatchFields.run, CatchFields.run]
    exact related_thenWith (related_run hi seed s s' h) fun b s s' h =>
      related_runFields hi (k _) _ s s' h
theorem related_runVariant
    (hi : ∀ {α : Type} (i : Impl α) s s', R s s' → Related R (r (i.run t) s) (r' (i.run t) s')) :
    {α : Type} → (i : CatchVariant α) → (s : σ) → (s' : τ) → R s s' →
    Related R (i.run t @r s) (i.run t @r' s')
  | _, .ok a, s, s', h => by rw [CatchVariant.run, CatchVariant.run]; exact ⟨rfl, h⟩
  | _, .error e, s, s', h => by rw [CatchVariant.run, CatchVariant.run]; exact ⟨rfl, h⟩
  | _, .unit x, s, s', h => by
    rw [CatchVariant.run, CatchVariant.run]; exact related_returnWith _ h
  | _, .newtype seed k, s, s', h => by
    rw [CatchVariant.run, CatchVariant.run]
    exact related_thenWith (related_run hi seed s s' h) fun b s s' h => related_returnWith _ h
  | _, .tuple len visit k, s, s', h => by
    rw [CatchVariant.run, CatchVariant.run]
    exact related_thenWith (related_runSeq hi (visit len) _ s s' h) fun b s s' h =>
      related_returnWith _ h
  | _, .struct fields visit k, s, s', h => by
    rw [CatchVariant.run, CatchVariant.run]
    exact related_thenWith (related_runFields hi visit _ s s' h) fun b s s' h =>
      related_returnWith _ h
end
end

/-! ## No panics -/

section
variable {σ : Type} {t : Target} {r : Runner σ}

theorem returns_thenWith {α β : Type} {x : Outcome DeErr β × σ} (h : x.1.returns)
    {k : Except DeErr β → σ → Outcome DeErr α × σ} (hk : ∀ b s, (k b s).1.returns) :
    (thenWith x k).1.returns := by
  obtain ⟨o, s⟩ := x
  cases o with
  | ok b => exact hk _ _
  | err e => exact hk _ _
  | panic q => exact h

theorem returns_thenOk {α β : Type} {x : Outcome DeErr β × σ} (h : x.1.returns)
    {k : β → σ → Outcome DeErr α × σ} (hk : ∀ b s, (k b s).1.returns) :
    (thenOk x k).1.returns := by
  refine returns_thenWith h fun b s => ?_
  cases b with
  | ok b => exact hk _ _
  | error e => trivial

theorem returns_returnWith {α : Type} (x : Except DeErr α) (s : σ) :
    (returnWith x s).1.returns := by cases x <;> trivial

mutual
theorem returns_run
    (hi : ∀ {α : Type} (i : Impl α), NoTodo i → ∀ s, (r (i.run t) s).1.returns) :
    {α : Type} → (i : CatchImpl α) → CatchNoTodo i → (s : σ) → (i.run t @r s).1.returns
  | _, .ok a, _, s => by rw [CatchImpl.run]; trivial
  | _, .error e, _, s => by rw [CatchImpl.run]; trivial
  | _, .plain i, h, s => by rw [CatchImpl.run]; exact hi i h s
  | _, .andThen p k, h, s => by
    rw [CatchImpl.run]
    exact returns_thenWith (returns_run hi p h.1 s) fun b s => returns_run hi (k b) (h.2 b) s
  | _, .option onNone onSome, h, s => by
    rw [CatchImpl.run]
    have h0 := hi .bool trivial s
    rw [Impl.run] at h0
    refine returns_thenOk h0 fun b s => ?_
    split
    · exact returns_run hi onSome h.2 s
    · exact returns_run hi onNone h.1 s
  | _, .newtypeStruct _ visit, h, s => by
    rw [CatchImpl.run]; exact returns_run hi visit h s
  | _, .seq visit, h, s => by
    rw [CatchImpl.run]
    have h0 := hi .u64 trivial s
    rw [Impl.run, deU64] at h0
    exact returns_thenOk h0 fun b s => returns_runSeq hi (visit _) (h _) _ s
  | _, .tuple len visit, h, s => by
    rw [CatchImpl.run]; exact returns_runSeq hi (visit len) h _ s
  | _, .tupleStruct _ len visit, h, s => by
    rw [CatchImpl.run]; exact returns_runSeq hi (visit len) h _ s
  | _, .map visit, h, s => by
    rw [CatchImpl.run]
    have h0 := hi .u64 trivial s
    rw [Impl.run, deU64] at h0
    exact returns_thenOk h0 fun b s => returns_runMap hi (visit _) (h _) _ s
  | _, .struct _ fields visit, h, s => by
    rw [CatchImpl.run]; exact returns_runFields hi visit h _ s
  | _, .enum _ _ seed visit onErr, h, s => by
    rw [CatchImpl.run]
    refine returns_thenWith (returns_run hi seed h.1 s) fun b s => ?_
    cases b with
    | ok b => exact returns_runVariant hi (visit b) (h.2 b) s
    | error e => exact returns_returnWith _ _
theorem returns_runSeq
    (hi : ∀ {α : Type} (i : Impl α), NoTodo i → ∀ s, (r (i.run t) s).1.returns) :
    {α : Type} → (i : CatchSeq α) → CatchSeqNoTodo i → (count : Nat) → (s : σ) →
    (i.run t @r count s).1.returns
  | _, .ok a, _, _, s => by rw [CatchSeq.run]; trivial
  | _, .error e, _, _, s => by rw [CatchSeq.run]; trivial
  | _, .next seed k, h, count, s => by
    rw [CatchSeq.run]
    split
    · exact returns_thenWith (returns_run hi seed h.1 s) fun b s =>
        returns_runSeq hi (k _) (h.2 _) _ s
    · exact returns_runSeq hi (k _) (h.2 _) _ s
theorem returns_runMap
    (hi : ∀ {α : Type} (i : Impl α), NoTodo i → ∀ s, (r (i.run t) s).1.returns) :
    {α : Type} → (i : CatchMap α) → CatchMapNoTodo i → (count : Nat) → (s : σ) →
    (i.run t @r count s).1.returns
  | _, .ok a, _, _, s => by rw [CatchMap.run]; trivial
  | _, .error e, _, _, s => by rw [CatchMap.run]; trivial
  | _, .key seed k, h, count, s => by
    rw [CatchMap.run]
    split
    · exact returns_thenWith (returns_run hi seed h.1 s) fun b s =>
        returns_runMap hi (k _) (h.2 _) _ s
    · exact returns_runMap hi (k _) (h.2 _) _ s
  | _, .value seed k, h, count, s => by
    rw [CatchMap.run]
    exact returns_thenWith (returns_run hi seed h.1 s) fun b s =>
      returns_runMap hi (k _) (h.2 _) _ s
theorem returns_runFields
    (hi : ∀ {α : Type} (i : Impl α), NoTodo i → ∀ s, (r (i.run t) s).1.returns) :
    {α : Type} → (i : CatchFields α) → CatchFieldsNoTodo i → (keys : List String) → (s : σ) →
    (i.run t @r keys s).1.returns
  | _, .ok a, _, _, s => by rw [CatchFields.run]; trivial
  | _, .error e, _, _, s => by rw [CatchFields.run]; trivial
  | _, .key k, h, [], s => by
    rw [CatchFields.run]; exact returns_runFields hi (k none) (h _) _ s
  | _, .key k, h, name :: keys, s => by
    rw [CatchFields.run]; exact returns_runFields hi (k (some name)) (h _) _ s
  | _, .value seed k, h, keys, s => by
    rw [CatchFields.run]
    exact returns_thenWith (returns_run hi seed h.1 s) fun b s =>
      returns_runFields hi (k _) (h.2 _) _ s
theorem returns_runVariant
    (hi : ∀ {α : Type} (i : Impl α), NoTodo i → ∀ s, (r (i.run t) s).1.returns) :
    {α : Type} → (i : CatchVariant α) → CatchVariantNoTodo i → (s : σ) →
    (i.run t @r s).1.returns
  | _, .ok a, _, s => by rw [CatchVariant.run]; trivial
  | _, .error e, _, s => by rw [CatchVariant.run]; trivial
  | _, .unit x, _, s => by rw [CatchVariant.run]; exact returns_returnWith _ _
  | _, .newtype seed k, h, s => by
    rw [CatchVariant.run]
    exact returns_thenWith (returns_run hi seed h s) fun b s => returns_returnWith _ _
  | _, .tuple len visit k, h, s => by
    rw [CatchVariant.run]
    exact returns_thenWith (returns_runSeq hi (visit len) h _ s) fun b s => returns_returnWith _ _
  | _, .struct fields visit k, h, s => by
    rw [CatchVariant.run]
    exact returns_thenWith (returns_runFields hi visit h _ s) fun b s => returns_returnWith _ _
end
end

/-! ## Runs with the reader afterwards -/

theorem Prog.Total.execAt {ε α : Type} {t : Target} {p : Prog ε α} (hp : Prog.Total t p)
    (bs : List UInt8) : (Prog.execAt t p bs).1.returns := by
  have h := Prog.Total.exec hp .eof bs
  rw [← Prog.run, Prog.execAt_fst] at h
  cases hx : Prog.execAt t p bs with
  | mk o s => rw [hx] at h; cases o <;> first | trivial | exact h

theorem Prog.Total.runScriptAt {ε α : Type} {t : Target} {p : Prog ε α} (hp : Prog.Total t p)
    (size : Nat → Nat) (s : Script) : (Prog.runScriptAt t size p s).1.returns := by
  have h := Prog.Total.runScript hp size s
  rw [Prog.runScriptAt_fst] at h
  cases hx : Prog.runScriptAt t size p s with
  | mk o s => rw [hx] at h; cases o <;> first | trivial | exact h

theorem Prog.execAt_nil {ε α : Type} (t : Target) (p : Prog ε α) : (p.execAt t []).2 = [] := by
  induction p with
  | done o => rfl
  | readExact n onErr k ih =>
    rw [Prog.execAt]
    split
    · rw [List.drop_nil]; exact ih _
    · rfl
  | takeToEnd n onErr k ih =>
    rw [Prog.execAt]
    split
    · rw [List.drop_nil]; exact ih _
    · exact ih _
  | alloc n k ih =>
    rw [Prog.execAt]
    cases t.allocate n with
    | some q => rfl
    | none => exact ih

/-! ## `Vec` of elements -/

theorem run_catchVecLoop {β : Type} {t : Target} {seed : CatchImpl β} :
    (slots : List (List UInt8 × β)) →
    (∀ b ∈ slots, ∀ rest, seed.exec t (b.1 ++ rest) = (.ok b.2, rest)) →
    (fuel : Nat) → slots.length < fuel → (values : List β) → (more : List UInt8) →
    (catchVecLoop seed fuel values).run t (fun p bs => p.execAt t bs) slots.length
        (slots.flatMap (·.1) ++ more)
      = (.ok (values ++ slots.map (·.2)), more)
  | [], _, fuel, hf, values, more => by
    obtain ⟨fuel, rfl⟩ : ∃ m, fuel = m + 1 := ⟨fuel - 1, by simp at hf; omega⟩
    rw [catchVecLoop, CatchSeq.run]
    simp [CatchSeq.run]
  | b :: slots, h, fuel, hf, values, more => by
    obtain ⟨fuel, rfl⟩ : ∃ m, fuel = m + 1 := ⟨fuel - 1, by simp at hf; omega⟩
    have hb := h b List.mem_cons_self (slots.flatMap (·.1) ++ more)
    rw [catchVecLoop, CatchSeq.run, if_pos (by simp), List.flatMap_cons, List.append_assoc]
    rw [CatchImpl.exec] at hb
    rw [hb]
    simp only [thenWith, Except.map, List.length_cons, Nat.add_sub_cancel]
    rw [run_catchVecLoop slots (fun b hb => h b (List.mem_cons_of_mem _ hb)) fuel
      (by simp at hf; omega) (values ++ [b.2]) more]
    simp

theorem run_catchVecLoop_short {β : Type} {t : Target} {seed : CatchImpl β} {d : β}
    (h : seed.exec t [] = (.ok d, [])) :
    (n fuel : Nat) → n < fuel → (values : List β) →
    (catchVecLoop seed fuel values).run t (fun p bs => p.execAt t bs) n []
      = (.ok (values ++ List.replicate n d), [])
  | 0, fuel, hf, values => by
    obtain ⟨fuel, rfl⟩ : ∃ m, fuel = m + 1 := ⟨fuel - 1, by omega⟩
    rw [catchVecLoop, CatchSeq.run]
    simp [CatchSeq.run]
  | n + 1, fuel, hf, values => by
    obtain ⟨fuel, rfl⟩ : ∃ m, fuel = m + 1 := ⟨fuel - 1, by omega⟩
    have hb := h
    rw [CatchImpl.exec] at hb
    rw [catchVecLoop, CatchSeq.run, if_pos (by simp), hb]
    simp only [thenWith, Except.map, Nat.add_sub_cancel]
    rw [run_catchVecLoop_short h n fuel (by omega) (values ++ [d])]
    simp [List.replicate_succ]

/-! ## Visitors that skip -/

/-- `bs` is read as a value, or as an error, whatever follows. -/
def ReadsAs {β : Type} (t : Target) (i : Impl β) (bs : List UInt8) : Option β → Prop
  | some v => ∀ rest, Prog.execAt t (i.run t) (bs ++ rest) = (.ok v, rest)
  | none => ∀ rest, ∃ e, Prog.execAt t (i.run t) (bs ++ rest) = (.err e, rest)

theorem run_skipVecLoop {β : Type} {t : Target} {i : Impl β} :
    (slots : List (List UInt8 × Option β)) →
    (∀ b ∈ slots, ReadsAs t i b.1 b.2) →
    (fuel : Nat) → slots.length < fuel → (values : List β) → (more : List UInt8) →
    (skipVecLoop (.plain i) fuel values).run t (fun p bs => p.execAt t bs) slots.length
        (slots.flatMap (·.1) ++ more)
      = (.ok (values ++ slots.filterMap (·.2)), more)
  | [], _, fuel, hf, values, more => by
    obtain ⟨fuel, rfl⟩ : ∃ m, fuel = m + 1 := ⟨fuel - 1, by simp at hf; omega⟩
    rw [skipVecLoop, CatchSeq.run]
    simp [CatchSeq.run]
  | (b, x) :: slots, h, fuel, hf, values, more => by
    obtain ⟨fuel, rfl⟩ : ∃ m, fuel = m + 1 := ⟨fuel - 1, by simp at hf; omega⟩
    have hb := h (b, x) List.mem_cons_self
    have hr := run_skipVecLoop slots (fun b hb => h b (List.mem_cons_of_mem _ hb)) fuel
      (by simp at hf; omega)
    rw [skipVecLoop, CatchSeq.run, if_pos (by simp), List.flatMap_cons, List.append_assoc,
      CatchImpl.run]
    cases x with
    | some v =>
      simp only [ReadsAs] at hb
      rw [hb]
      simp only [thenWith, Except.map, List.length_cons, Nat.add_sub_cancel]
      rw [hr]
      simp
    | none =>
      obtain ⟨e, hb⟩ := hb _
      rw [hb]
      simp only [thenWith, Except.map, List.length_cons, Nat.add_sub_cancel]
      rw [hr]
      simp

theorem run_skipMapLoop {κ β : Type} {t : Target} {i : Impl κ} {j : Impl β} :
    (slots : List ((List UInt8 × Option κ) × (List UInt8 × Option β))) →
    (∀ b ∈ slots, ReadsAs t i b.1.1 b.1.2) →
    (∀ b ∈ slots, ReadsAs t j b.2.1 b.2.2) →
    (fuel : Nat) → slots.length < fuel → (entries : List (κ × β)) → (more : List UInt8) →
    (skipMapLoop (.plain i) (.plain j) fuel entries).run t (fun p bs => p.execAt t bs) slots.length
        (slots.flatMap (fun b => b.1.1 ++ b.2.1) ++ more)
      = (.ok (entries ++ slots.filterMap fun b => b.1.2.bind fun k => b.2.2.map fun v => (k, v)),
        more)
  | [], _, _, fuel, hf, entries, more => by
    obtain ⟨fuel, rfl⟩ : ∃ m, fuel = m + 1 := ⟨fuel - 1, by simp at hf; omega⟩
    rw [skipMapLoop, CatchMap.run]
    simp [CatchMap.run]
  | ((b, x), (c, y)) :: slots, h, h', fuel, hf, entries, more => by
    obtain ⟨fuel, rfl⟩ : ∃ m, fuel = m + 1 := ⟨fuel - 1, by simp at hf; omega⟩
    have hb := h ((b, x), (c, y)) List.mem_cons_self
    have hc := h' ((b, x), (c, y)) List.mem_cons_self
    have hr := run_skipMapLoop slots (fun b hb => h b (List.mem_cons_of_mem _ hb))
      (fun b hb => h' b (List.mem_cons_of_mem _ hb)) fuel (by simp at hf; omega)
    rw [skipMapLoop, CatchMap.run, if_pos (by simp), List.flatMap_cons]
    simp only [List.append_assoc]
    rw [CatchImpl.run]
    cases x with
    | some k =>
      simp only [ReadsAs] at hb
      rw [hb]
      simp only [thenWith, Except.map, List.length_cons, Nat.add_sub_cancel, CatchMap.run,
        CatchImpl.run]
      cases y with
      | some v => simp only [ReadsAs] at hc; rw [hc]; simp only; rw [hr]; simp
      | none => obtain ⟨e, hc⟩ := hc _; rw [hc]; simp only; rw [hr]; simp
    | none =>
      obtain ⟨e, hb⟩ := hb _
      rw [hb]
      simp only [thenWith, Except.map, List.length_cons, Nat.add_sub_cancel, CatchMap.run,
        CatchImpl.run]
      cases y with
      | some v => simp only [ReadsAs] at hc; rw [hc]; simp only; rw [hr]; simp
      | none => obtain ⟨e, hc⟩ := hc _; rw [hc]; simp only; rw [hr]; simp

theorem run_skipFieldsLoop {β : Type} {t : Target} {i : Impl β} :
    (slots : List (String × List UInt8 × Option β)) →
    (∀ b ∈ slots, ReadsAs t i b.2.1 b.2.2) →
    (fuel : Nat) → slots.length < fuel → (entries : List (String × β)) → (more : List UInt8) →
    (skipFieldsLoop (.plain i) fuel entries).run t (fun p bs => p.execAt t bs) (slots.map (·.1))
        (slots.flatMap (·.2.1) ++ more)
      = (.ok (entries ++ slots.filterMap fun b => b.2.2.map fun v => (b.1, v)), more)
  | [], _, fuel, hf, entries, more => by
    obtain ⟨fuel, rfl⟩ : ∃ m, fuel = m + 1 := ⟨fuel - 1, by simp at hf; omega⟩
    rw [skipFieldsLoop, List.map_nil, CatchFields.run]
    simp [CatchFields.run]
  | (name, b, x) :: slots, h, fuel, hf, entries, more => by
    obtain ⟨fuel, rfl⟩ : ∃ m, fuel = m + 1 := ⟨fuel - 1, by simp at hf; omega⟩
    have hb := h (name, b, x) List.mem_cons_self
    have hr := run_skipFieldsLoop slots (fun b hb => h b (List.mem_cons_of_mem _ hb)) fuel
      (by simp at hf; omega)
    rw [skipFieldsLoop, List.map_cons, CatchFields.run, CatchFields.run, List.flatMap_cons,
      List.append_assoc, CatchImpl.run]
    cases x with
    | some v => simp only [ReadsAs] at hb; rw [hb]; simp only [thenWith]; rw [hr]; simp
    | none => obtain ⟨e, hb⟩ := hb _; rw [hb]; simp only [thenWith]; rw [hr]; simp

end Dlhn
