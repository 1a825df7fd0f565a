import Verif.Proof.StdTypes
import Verif.Proof.Convert
import Verif.Proof.After
import Verif.Spec.With
/-! # Facts about values made of parts with code of their own -/
namespace Dlhn.With

open De Spec StdTypes

universe u

/-- One after the other. -/
def runAll {β : Type} (t : Target) : List (Impl β) → Prog DeErr (List β)
  | [] => .done (.ok [])
  | i :: is => Prog.bind (i.run t) fun a => Prog.bind (runAll t is) fun as => .done (.ok (a :: as))

theorem run_collectTuple {β : Type} (t : Target) (ds : List (Impl β)) (acc : List β) :
    (collectTuple ds acc).run t ds.length
      = Prog.bind (runAll t ds) fun vs => .done (.ok (acc ++ vs)) := by
  induction ds generalizing acc with
  | nil => simp [collectTuple, SeqImpl.run, runAll, Prog.bind]
  | cons d ds ih =>
    rw [collectTuple, SeqImpl.run, List.length_cons, if_pos (by omega), runAll, Prog.bind_assoc]
    congr; funext v
    dsimp only
    rw [Nat.add_sub_cancel, ih, Prog.bind_assoc]
    congr; funext vs
    simp [Prog.bind]

theorem run_tuple {β : Type} (t : Target) (ds : List (Impl β)) :
    (collectTuple ds []).run t ds.length = runAll t ds := by
  rw [run_collectTuple]
  simp only [List.nil_append]
  exact Prog.bind_ok _

theorem runFields_eq {β : Type} (t : Target) (fs : List (String × Impl β)) :
    runFields t fs = Prog.bind (runAll t (fs.map (·.2))) fun vs =>
      .done (.ok ((fs.map (·.1)).zip vs)) := by
  induction fs with
  | nil => rfl
  | cons f fs ih =>
    obtain ⟨n, i⟩ := f
    rw [runFields, List.map_cons, runAll, Prog.bind_assoc]
    congr; funext v
    rw [ih, Prog.bind_assoc, Prog.bind_assoc]
    rfl

theorem run_fields {β : Type} (t : Target) (fs : List (String × Impl β))
    (hn : (fs.map (·.1)).Nodup) :
    (collectFields fs (fs.length + 1) (fs.map fun _ => none)).run t (fs.map (·.1))
      = Prog.bind (runAll t (fs.map (·.2))) fun vs => .done (.ok ((fs.map (·.1)).zip vs)) := by
  have := run_collectFields t [] fs [] rfl (by simpa using hn)
  simp only [List.nil_append, List.map_nil, List.zip_nil_left] at this
  rw [this, Prog.bind_ok, runFields_eq]

theorem CarriesAll.lengths {t : Target} {β : Type} {ps : List SerImpl} {is : List (Impl β)}
    {as : List β} {enc : List UInt8} (h : CarriesAll t ps is as enc) :
    ps.length = as.length ∧ is.length = as.length := by
  induction h with
  | nil => exact ⟨rfl, rfl⟩
  | cons _ _ ih => simp [ih.1, ih.2]

theorem reads_all {t : Target} {β : Type} {ps : List SerImpl} {is : List (Impl β)}
    {as : List β} {enc : List UInt8} (h : CarriesAll t ps is as enc) (rest : List UInt8) :
    Prog.run t (runAll t is) (enc ++ rest) = .ok (as, rest) := by
  induction h generalizing rest with
  | nil => rfl
  | cons h _ ih =>
    rw [runAll, List.append_assoc, reads_bind (h.2 _), reads_bind (ih _)]
    rfl

theorem writes_all {t : Target} {β : Type} {ps : List SerImpl} {is : List (Impl β)}
    {as : List β} {enc : List UInt8} (h : CarriesAll t ps is as enc) :
    writtenSeq (partsSer ps) = (enc, none) := by
  induction h with
  | nil => rfl
  | cons h _ ih =>
    have h1 := writes_iff.mp h.1
    simp [partsSer, writtenSeq, following, h1, ih]

theorem writes_fields {t : Target} {β : Type} {ps : List SerImpl} {is : List (Impl β)}
    {as : List β} {enc : List UInt8} (h : CarriesAll t ps is as enc) (names : List String)
    (hl : names.length = as.length) :
    writtenStruct (fieldsSer (names.zip ps)) = (enc, none) := by
  induction h generalizing names with
  | nil => rw [List.zip_nil_right]; rfl
  | cons h _ ih =>
    have h1 := writes_iff.mp h.1
    cases names with
    | nil => cases hl
    | cons n names =>
      have := ih names (by simpa using hl)
      simp [fieldsSer, writtenStruct, following, h1, this]

theorem map_fst_zip {β : Type u} (names : List String) (is : List β)
    (h : is.length = names.length) : (names.zip is).map (·.1) = names := by
  rw [List.map_fst_zip (by omega)]

theorem map_snd_zip {β : Type u} (names : List String) (is : List β)
    (h : is.length = names.length) : (names.zip is).map (·.2) = is := by
  rw [List.map_snd_zip (by omega)]

theorem run_struct {β : Type} (t : Target) (names : List String) (is : List (Impl β))
    (hn : names.Nodup) (hl : is.length = names.length) :
    (collectFields (names.zip is) ((names.zip is).length + 1)
      ((names.zip is).map fun _ => none)).run t ((names.zip is).map (·.1))
      = Prog.bind (runAll t is) fun vs => .done (.ok (names.zip vs)) := by
  rw [run_fields t _ (by rw [map_fst_zip _ _ hl]; exact hn), map_fst_zip _ _ hl,
    map_snd_zip _ _ hl]

theorem reads_struct {t : Target} {β : Type} {ps : List SerImpl} {is : List (Impl β)}
    {as : List β} {enc : List UInt8} (h : CarriesAll t ps is as enc) {names : List String}
    (hn : names.Nodup) (hl : names.length = as.length) (rest : List UInt8) :
    Prog.run t ((collectFields (names.zip is) ((names.zip is).length + 1)
      ((names.zip is).map fun _ => none)).run t ((names.zip is).map (·.1))) (enc ++ rest)
      = .ok (names.zip as, rest) := by
  rw [run_struct t names is hn (by rw [(CarriesAll.lengths h).2, hl]), reads_bind (reads_all h rest)]
  rfl

theorem writes_body {t : Target} {β : Type} {ps : OwnParts} {b : OwnBody β} {as : List β}
    {enc : List UInt8} (h : CarriesBody t ps b as enc) (name : String) (i : UInt32)
    (variant : String) :
    Writes (ownVariantSer name i variant ps) (varint 32 i.toNat ++ enc) := by
  rw [writes_iff]
  cases h with
  | unit => simp [ownVariantSer, written]
  | newtype h =>
    have h1 := writes_iff.mp h.1
    simp [ownVariantSer, written, h1]
  | tuple h => simp [ownVariantSer, written, writes_all h]
  | struct hn hl h => simp [ownVariantSer, written, writes_fields h _ hl]

theorem reads_body {t : Target} {β : Type} {ps : OwnParts} {b : OwnBody β} {as : List β}
    {enc : List UInt8} (h : CarriesBody t ps b as enc) (i : UInt16) (rest : List UInt8) :
    Prog.run t ((ownVariantDe i b).run t) (enc ++ rest) = .ok ((i, as), rest) := by
  cases h with
  | unit => rfl
  | newtype h => rw [ownVariantDe, VariantImpl.run, reads_bind (h.2 rest)]; rfl
  | tuple h =>
    rw [ownVariantDe, VariantImpl.run, run_tuple, reads_bind (reads_all h rest)]; rfl
  | struct hn hl h =>
    rw [ownVariantDe, VariantImpl.run, reads_bind (reads_struct h hn hl rest)]
    rw [map_snd_zip _ _ hl.symm]
    rfl

theorem writes_entries {t : Target} {κ β : Type} {key : Impl κ} {value : Impl β}
    {es : List (SerImpl × SerImpl)} {as : List (κ × β)} {enc : List UInt8}
    (h : CarriesEntries t key value es as enc) :
    writtenMap (entriesSer es) = (enc, none) ∧ es.length = as.length := by
  induction h with
  | nil => exact ⟨rfl, rfl⟩
  | cons hk _ hv _ ih =>
    have h1 := writes_iff.mp hv.1
    refine ⟨?_, by simp [ih.2]⟩
    simp [entriesSer, writtenMap, hk, following, h1, ih.1]

theorem reads_entries {t : Target} {κ β : Type} {key : Impl κ} {value : Impl β}
    {es : List (SerImpl × SerImpl)} {as : List (κ × β)} {enc : List UInt8}
    (h : CarriesEntries t key value es as enc) (rest : List UInt8) :
    Prog.run t (times as.length (Prog.bind (key.run t) fun k => Prog.bind (value.run t) fun v =>
      .done (.ok (k, v)))) (enc ++ rest) = .ok (as, rest) := by
  induction h generalizing rest with
  | nil => rfl
  | cons hk hr hv _ ih =>
    rw [List.length_cons, times, Prog.bind_eq, Prog.bind_assoc]
    simp only [List.append_assoc]
    rw [reads_bind (hr _), Prog.bind_assoc, reads_bind (hv.2 _)]
    simp only [Prog.bind]
    rw [Prog.bind_eq, reads_bind (ih _)]
    rfl

theorem runs_all {σ : Type} (step : RStep σ) (t : Target) {β : Type} (is : List (Impl β))
    (s s' : σ) (cs : List ReadRes) (o : Outcome DeErr (List β)) :
    Runs step t (runAll t is) s cs o s' ↔ InTurn step t is s cs o s' := by
  induction is generalizing s cs o with
  | nil =>
    rw [runAll]
    constructor <;> intro h <;> cases h
    · exact .all
    · exact .done _ _
  | cons i is ih =>
    rw [runAll, Runs.bind_iff]
    constructor
    · rintro (⟨a, cs1, s1, cs2, rfl, h1, h2⟩ | ⟨e, rfl, h⟩ | ⟨q, rfl, h⟩)
      · rcases Runs.bind_iff.mp h2 with ⟨as, cs3, s3, cs4, rfl, h3, h4⟩ | ⟨e, rfl, h⟩ | ⟨q, rfl, h⟩
        · cases h4
          rw [List.append_nil]
          exact .next h1 ((ih _ _ _).mp h3)
        · exact .next h1 ((ih _ _ _).mp h)
        · exact .next h1 ((ih _ _ _).mp h)
      · exact .err h
      · exact .panic h
    · intro h
      cases h with
      | @next _ _ _ s1 _ c1 c2 a o h1 h2 =>
        refine .inl ⟨a, c1, s1, c2, rfl, h1, Runs.bind_iff.mpr ?_⟩
        have h3 := (ih _ _ _).mpr h2
        cases o with
        | ok as => exact .inl ⟨as, c2, s', [], by simp, h3, .done _ _⟩
        | err e => exact .inr (.inl ⟨e, rfl, h3⟩)
        | panic q => exact .inr (.inr ⟨q, rfl, h3⟩)
      | err h => exact .inr (.inl ⟨_, rfl, h⟩)
      | panic h => exact .inr (.inr ⟨_, rfl, h⟩)

/-- The bytes of those that succeed, then those of the one that fails. -/
theorem fails_all {ps post : List SerImpl} {p : SerImpl} {enc : SerImpl → List UInt8}
    {part : List UInt8} {e : SerErr} (h : ∀ q ∈ ps, Writes q (enc q)) (hp : Fails p part e) :
    writtenSeq (partsSer (ps ++ p :: post)) = (ps.flatMap enc ++ part, some e) := by
  induction ps with
  | nil =>
    have := fails_iff.mp hp
    simp [partsSer, writtenSeq, following, this]
  | cons q ps ih =>
    have h1 := writes_iff.mp (h q List.mem_cons_self)
    have h2 := ih fun r hr => h r (List.mem_cons_of_mem _ hr)
    simp [partsSer, writtenSeq, following, h1, h2]

theorem fails_fields {fs post : List (String × SerImpl)} {n : String} {p : SerImpl}
    {enc : SerImpl → List UInt8} {part : List UInt8} {e : SerErr}
    (h : ∀ f ∈ fs, Writes f.2 (enc f.2)) (hp : Fails p part e) :
    writtenStruct (fieldsSer (fs ++ (n, p) :: post))
      = ((fs.map (·.2)).flatMap enc ++ part, some e) := by
  induction fs with
  | nil =>
    have := fails_iff.mp hp
    simp [fieldsSer, writtenStruct, following, this]
  | cons q fs ih =>
    have h1 := writes_iff.mp (h q List.mem_cons_self)
    have h2 := ih fun r hr => h r (List.mem_cons_of_mem _ hr)
    simp [fieldsSer, writtenStruct, following, h1, h2]

theorem fails_entries {es : List (SerImpl × SerImpl)} {enc : SerImpl × SerImpl → List UInt8}
    (h : ∀ x ∈ es, ∃ text v, Spec.keyText x.1 = some text ∧ Writes x.2 v ∧
      enc x = Spec.counted (Spec.utf8 text) ++ v) (last : List (SerImpl × SerImpl)) :
    writtenMap (entriesSer (es ++ last))
      = (es.flatMap enc ++ (writtenMap (entriesSer last)).1, (writtenMap (entriesSer last)).2) := by
  induction es with
  | nil => rfl
  | cons x es ih =>
    obtain ⟨k, q⟩ := x
    obtain ⟨text, v, hk, hv, he⟩ := h _ List.mem_cons_self
    have h1 := writes_iff.mp hv
    have h2 := ih fun r hr => h r (List.mem_cons_of_mem _ hr)
    simp only at hk h1
    simp [entriesSer, writtenMap, hk, following, h1, h2, he]

end Dlhn.With
