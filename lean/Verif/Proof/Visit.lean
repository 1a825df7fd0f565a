import Verif.Spec.Visit
import Verif.Proof.DeHas
/-! # Facts about arbitrary `Deserialize` implementations -/
namespace Dlhn

open De PrefixVarint Spec

theorem Prog.bind_assoc {ε α β γ : Type} (p : Prog ε α) (f : α → Prog ε β) (g : β → Prog ε γ) :
    Prog.bind (Prog.bind p f) g = Prog.bind p fun a => Prog.bind (f a) g := by
  induction p with
  | done o => cases o <;> rfl
  | readExact n onErr k ih => simp only [Prog.bind, ih]
  | takeToEnd n onErr k ih => simp only [Prog.bind, ih]
  | alloc n k ih => simp only [Prog.bind, ih]

theorem Prog.bind_ok {ε α : Type} (p : Prog ε α) : Prog.bind p (fun a => .done (.ok a)) = p := by
  induction p with
  | done o => cases o <;> rfl
  | readExact n onErr k ih => simp only [Prog.bind, ih]
  | takeToEnd n onErr k ih => simp only [Prog.bind, ih]
  | alloc n k ih => simp only [Prog.bind, ih]

/-! ## Closed predicates -/

section
variable {t : Target} {P : ∀ {α : Type}, Prog DeErr α → Prop}

theorem closed_ofExcept (hP : Closed t @P) {α : Type} : (r : Except DeErr α) → P (ofExcept r)
  | .ok _ => hP.ok _
  | .error _ => hP.err _

mutual
theorem closed_impl (hP : Closed t @P) : {α : Type} → (i : Impl α) →
    NoTodo i ∨ (∀ α : Type, P (.done (.panic .todo) : Prog DeErr α)) → P (i.run t)
  | _, .ok a, _ => by rw [Impl.run]; exact hP.ok _
  | _, .error e, _ => by rw [Impl.run]; exact hP.err _
  | _, .andThen p k, h => by
    rw [Impl.run]
    exact hP.bind (closed_impl hP p (h.imp_left (·.1))) fun b =>
      closed_impl hP (k b) (h.imp_left (·.2 b))
  | _, .humanReadable k, h => by
    rw [Impl.run]; exact closed_impl hP (k false) (h.imp_left id)
  | _, .any, h => by rw [Impl.run]; exact h.resolve_left id _
  | _, .str, h => by rw [Impl.run]; exact h.resolve_left id _
  | _, .bytes, h => by rw [Impl.run]; exact h.resolve_left id _
  | _, .ignoredAny, h => by rw [Impl.run]; exact h.resolve_left id _
  | _, .bool, _ => by rw [Impl.run]; exact hP.bool
  | _, .i8, _ => by rw [Impl.run]; exact hP.wrap (hP.read 1 (by decide)) _
  | _, .i16, _ => by rw [Impl.run]; exact hP.wrap hP.u16 _
  | _, .i32, _ => by rw [Impl.run]; exact hP.wrap hP.u32 _
  | _, .i64, _ => by rw [Impl.run]; exact hP.wrap hP.u64 _
  | _, .i128, _ => by rw [Impl.run]; exact hP.err _
  | _, .u8, _ => by rw [Impl.run]; exact hP.wrap (hP.read 1 (by decide)) _
  | _, .u16, _ => by rw [Impl.run]; exact hP.u16
  | _, .u32, _ => by rw [Impl.run]; exact hP.u32
  | _, .u64, _ => by rw [Impl.run]; exact hP.u64
  | _, .u128, _ => by rw [Impl.run]; exact hP.err _
  | _, .f32, _ => by rw [Impl.run]; exact hP.wrap (hP.read 4 (by decide)) _
  | _, .f64, _ => by rw [Impl.run]; exact hP.wrap (hP.read 8 (by decide)) _
  | _, .char, _ => by rw [Impl.run]; exact hP.char
  | _, .string, _ => by rw [Impl.run]; exact hP.string
  | _, .byteBuf, _ => by rw [Impl.run]; exact hP.byteBuf
  | _, .identifier, _ => by rw [Impl.run]; exact hP.u16
  | _, .unit, _ => by rw [Impl.run]; exact hP.ok _
  | _, .unitStruct _, _ => by rw [Impl.run]; exact hP.ok _
  | _, .option onNone onSome, h => by
    rw [Impl.run]
    refine hP.bind hP.bool fun b => ?_
    split
    · exact closed_impl hP onSome (h.imp_left (·.2))
    · exact closed_impl hP onNone (h.imp_left (·.1))
  | _, .newtypeStruct _ visit, h => by rw [Impl.run]; exact closed_impl hP visit (h.imp_left id)
  | _, .seq visit, h => by
    rw [Impl.run]
    exact hP.bind hP.u64 fun c => closed_seqImpl hP (visit _) _ (h.imp_left (· _))
  | _, .tuple len visit, h => by
    rw [Impl.run]; exact closed_seqImpl hP (visit len) _ (h.imp_left id)
  | _, .tupleStruct _ len visit, h => by
    rw [Impl.run]; exact closed_seqImpl hP (visit len) _ (h.imp_left id)
  | _, .map visit, h => by
    rw [Impl.run]
    exact hP.bind hP.u64 fun c => closed_mapImpl hP (visit _) _ (h.imp_left (· _))
  | _, .struct _ fields visit, h => by
    rw [Impl.run]; exact closed_fieldsImpl hP visit fields (h.imp_left id)
  | _, .enum _ _ seed visit, h => by
    rw [Impl.run]
    exact hP.bind (closed_impl hP seed (h.imp_left (·.1))) fun b =>
      closed_variantImpl hP (visit b) (h.imp_left (·.2 b))
theorem closed_seqImpl (hP : Closed t @P) : {α : Type} → (i : SeqImpl α) → (count : Nat) →
    SeqNoTodo i ∨ (∀ α : Type, P (.done (.panic .todo) : Prog DeErr α)) → P (i.run t count)
  | _, .ok a, _, _ => by rw [SeqImpl.run]; exact hP.ok _
  | _, .error e, _, _ => by rw [SeqImpl.run]; exact hP.err _
  | _, .next seed k, count, h => by
    rw [SeqImpl.run]
    split
    · exact hP.bind (closed_impl hP seed (h.imp_left (·.1))) fun b =>
        closed_seqImpl hP (k (some b)) _ (h.imp_left (·.2 _))
    · exact closed_seqImpl hP (k none) _ (h.imp_left (·.2 _))
theorem closed_mapImpl (hP : Closed t @P) : {α : Type} → (i : MapImpl α) → (count : Nat) →
    MapNoTodo i ∨ (∀ α : Type, P (.done (.panic .todo) : Prog DeErr α)) → P (i.run t count)
  | _, .ok a, _, _ => by rw [MapImpl.run]; exact hP.ok _
  | _, .error e, _, _ => by rw [MapImpl.run]; exact hP.err _
  | _, .key seed k, count, h => by
    rw [MapImpl.run]
    split
    · exact hP.bind (closed_impl hP seed (h.imp_left (·.1))) fun b =>
        closed_mapImpl hP (k (some b)) _ (h.imp_left (·.2 _))
    · exact closed_mapImpl hP (k none) _ (h.imp_left (·.2 _))
  | _, .value seed k, count, h => by
    rw [MapImpl.run]
    exact hP.bind (closed_impl hP seed (h.imp_left (·.1))) fun b =>
      closed_mapImpl hP (k b) _ (h.imp_left (·.2 _))
theorem closed_fieldsImpl (hP : Closed t @P) : {α : Type} → (i : FieldsImpl α) →
    (keys : List String) →
    FieldsNoTodo i keys ∨ (∀ α : Type, P (.done (.panic .todo) : Prog DeErr α)) → P (i.run t keys)
  | _, .ok a, _, _ => by rw [FieldsImpl.run]; exact hP.ok _
  | _, .error e, _, _ => by rw [FieldsImpl.run]; exact hP.err _
  | _, .key k, [], h => by
    rw [FieldsImpl.run]; exact closed_fieldsImpl hP (k none) [] (h.imp_left id)
  | _, .key k, name :: keys, h => by
    rw [FieldsImpl.run]; exact closed_fieldsImpl hP (k (some name)) keys (h.imp_left id)
  | _, .value seed k, keys, h => by
    rw [FieldsImpl.run]
    exact hP.bind (closed_impl hP seed (h.imp_left fun h => by rw [FieldsNoTodo] at h; exact h.1))
      fun b => closed_fieldsImpl hP (k b) _ (h.imp_left fun h => by
        rw [FieldsNoTodo] at h; exact h.2 b)
theorem closed_variantImpl (hP : Closed t @P) : {α : Type} → (i : VariantImpl α) →
    VariantNoTodo i ∨ (∀ α : Type, P (.done (.panic .todo) : Prog DeErr α)) → P (i.run t)
  | _, .ok a, _ => by rw [VariantImpl.run]; exact hP.ok _
  | _, .error e, _ => by rw [VariantImpl.run]; exact hP.err _
  | _, .unit r, _ => by rw [VariantImpl.run]; exact closed_ofExcept hP r
  | _, .newtype seed k, h => by
    rw [VariantImpl.run]
    exact hP.bind (closed_impl hP seed (h.imp_left id)) fun b => closed_ofExcept hP _
  | _, .tuple len visit k, h => by
    rw [VariantImpl.run]
    exact hP.bind (closed_seqImpl hP (visit len) _ (h.imp_left id)) fun b => closed_ofExcept hP _
  | _, .struct fields visit k, h => by
    rw [VariantImpl.run]
    exact hP.bind (closed_fieldsImpl hP visit _ (h.imp_left id)) fun b => closed_ofExcept hP _
end
end

/-! ## The standard implementations -/

theorem run_collectSeq {β : Type} (t : Target) (seed : Impl β) (n : Nat) (acc : List β) :
    (collectSeq seed (n + 1) acc).run t n
      = Prog.bind (times n (seed.run t)) fun vs => .done (.ok (acc ++ vs)) := by
  induction n generalizing acc with
  | zero => simp [collectSeq, SeqImpl.run, times, Prog.bind, Prog.pure_eq]
  | succ n ih =>
    rw [collectSeq, SeqImpl.run, if_pos (by omega), times, Prog.bind_eq, Prog.bind_assoc]
    congr; funext b
    dsimp only
    rw [Nat.add_sub_cancel, ih, Prog.bind_eq, Prog.bind_assoc]
    congr; funext vs
    simp [Prog.bind]

theorem run_collectMap {κ β : Type} (t : Target) (key : Impl κ) (value : Impl β) (n : Nat)
    (acc : List (κ × β)) :
    (collectMap key value (n + 1) acc).run t n
      = Prog.bind (times n (Prog.bind (key.run t) fun k => Prog.bind (value.run t) fun v =>
          .done (.ok (k, v)))) fun vs => .done (.ok (acc ++ vs)) := by
  induction n generalizing acc with
  | zero => simp [collectMap, MapImpl.run, times, Prog.bind, Prog.pure_eq]
  | succ n ih =>
    rw [collectMap, MapImpl.run, if_pos (by omega), times, Prog.bind_eq, Prog.bind_assoc,
      Prog.bind_assoc]
    congr; funext k
    dsimp only
    rw [MapImpl.run, Nat.add_sub_cancel, Prog.bind_assoc]
    congr; funext v
    rw [ih]
    simp only [Prog.bind, Prog.bind_eq, Prog.bind_assoc]
    congr; funext vs
    simp [Prog.bind]

/-- The fields one after the other. -/
def runFields {β : Type} (t : Target) : List (String × Impl β) → Prog DeErr (List (String × β))
  | [] => .done (.ok [])
  | (n, i) :: fs => Prog.bind (i.run t) fun v => Prog.bind (runFields t fs) fun vs =>
      .done (.ok ((n, v) :: vs))

theorem fillSlots_full {β : Type} : (fs : List (String × Impl β)) → (vs : List β) →
    fs.length = vs.length → fillSlots fs (vs.map some) = .ok ((fs.map (·.1)).zip vs)
  | [], [], _ => rfl
  | (n, _) :: fs, v :: vs, h => by
    rw [List.map_cons, fillSlots, fillSlots_full fs vs (by simpa using h)]
    rfl

theorem run_collectFields {β : Type} (t : Target) (pre post : List (String × Impl β)) (vs : List β)
    (hl : vs.length = pre.length) (hn : ((pre ++ post).map (·.1)).Nodup) :
    (collectFields (pre ++ post) (post.length + 1) (vs.map some ++ post.map fun _ => none)).run t
        (post.map (·.1))
      = Prog.bind (runFields t post) fun ws =>
          .done (.ok ((pre.map (·.1)).zip vs ++ ws)) := by
  induction post generalizing pre vs with
  | nil =>
    simp only [List.append_nil, List.map_nil]
    rw [collectFields, FieldsImpl.run]
    dsimp only
    rw [fillSlots_full pre vs hl.symm]
    simp [FieldsImpl.run, runFields, Prog.bind]
  | cons f post ih =>
    obtain ⟨n, i⟩ := f
    have hidx : (pre ++ (n, i) :: post).findIdx? (fun x => x.1 = n) = some pre.length := by
      rw [List.findIdx?_eq_some_iff_getElem]
      refine ⟨by simp, by simp, fun j hj => ?_⟩
      simp only [List.map_append, List.map_cons, List.nodup_append] at hn
      have := hn.2.2 (pre[j].1) (List.mem_map_of_mem (List.getElem_mem hj)) n (by simp)
      simpa [List.getElem_append_left hj] using this
    have hslot : (vs.map some ++ List.map (fun _ => (none : Option β)) ((n, i) :: post))[pre.length]?
        = some none := by
      rw [List.getElem?_append_right (by simp [hl])]
      simp [hl]
    have hf : (pre ++ (n, i) :: post)[pre.length]? = some (n, i) := by simp
    simp only [List.map_cons] at hslot ⊢
    rw [collectFields, FieldsImpl.run]
    dsimp only
    rw [hidx]
    dsimp only
    simp only [hslot, hf]
    rw [FieldsImpl.run, runFields, Prog.bind_assoc]
    congr; funext v
    have hset : (vs.map some ++ (none :: post.map fun _ => (none : Option β))).set pre.length (some v)
        = (vs ++ [v]).map some ++ post.map fun _ => none := by
      rw [List.set_append_right _ _ (by simp [hl])]
      simp [hl]
    have := ih (pre ++ [(n, i)]) (vs ++ [v]) (by simp [hl]) (by simpa using hn)
    rw [List.append_assoc, List.singleton_append] at this
    rw [hset, List.length_cons, this, Prog.bind_assoc]
    congr; funext ws
    rw [Prog.bind, List.map_append, List.zip_append (by simp [hl])]
    simp

theorem deVariant_none (t : Target) (name : String) (i : UInt16) : (j : Nat) →
    (vs : List (String × VTy)) → vs.length ≤ j →
    deVariant t name i j vs = .done (.err (unknownVariant i.toNat (i.toNat - (j - vs.length))))
  | _, [], _ => by rw [deVariant]; rfl
  | j + 1, _ :: vs, h => by
    rw [deVariant, deVariant_none t name i j vs (by simpa using h), List.length_cons,
      Nat.add_sub_add_right]

theorem length_implAll : (ts : List Ty) → (implAll ts).length = ts.length
  | [] => rfl
  | _ :: ts => by rw [implAll, List.length_cons, List.length_cons, length_implAll ts]
theorem length_implFields : (fs : List (String × Ty)) → (implFields fs).length = fs.length
  | [] => rfl
  | (_, _) :: fs => by rw [implFields, List.length_cons, List.length_cons, length_implFields fs]
theorem names_implFields : (fs : List (String × Ty)) →
    (implFields fs).map (·.1) = fs.map (·.1)
  | [] => rfl
  | (_, _) :: fs => by rw [implFields, List.map_cons, List.map_cons, names_implFields fs]
theorem none_implFields : (fs : List (String × Ty)) →
    (fs.map fun _ => (none : Option Val)) = (implFields fs).map fun _ => none
  | [] => rfl
  | (_, _) :: fs => by rw [implFields, List.map_cons, List.map_cons, none_implFields fs]

mutual
theorem run_implOf (t : Target) : (ty : Ty) → DistinctFields ty → (implOf ty).run t = de t ty
  | .bool, _ => by rw [implOf, de]; simp only [Impl.run]; rfl
  | .i8, _ => by rw [implOf, de]; simp only [Impl.run]; rfl
  | .i16, _ => by rw [implOf, de]; simp only [Impl.run]; rfl
  | .i32, _ => by rw [implOf, de]; simp only [Impl.run]; rfl
  | .i64, _ => by rw [implOf, de]; simp only [Impl.run]; rfl
  | .i128, _ => by rw [implOf, de, Impl.run]
  | .u8, _ => by rw [implOf, de]; simp only [Impl.run]; rfl
  | .u16, _ => by rw [implOf, de]; simp only [Impl.run]; rfl
  | .u32, _ => by rw [implOf, de]; simp only [Impl.run]; rfl
  | .u64, _ => by rw [implOf, de]; simp only [Impl.run]; rfl
  | .u128, _ => by rw [implOf, de, Impl.run]
  | .f32, _ => by rw [implOf, de]; simp only [Impl.run]; rfl
  | .f64, _ => by rw [implOf, de]; simp only [Impl.run]; rfl
  | .char, _ => by rw [implOf, de]; simp only [Impl.run]; rfl
  | .string, _ => by rw [implOf, de]; simp only [Impl.run]; rfl
  | .byteBuf, _ => by rw [implOf, de]; simp only [Impl.run]; rfl
  | .any, _ => by rw [implOf, de, Impl.run]
  | .str, _ => by rw [implOf, de, Impl.run]
  | .bytes, _ => by rw [implOf, de, Impl.run]
  | .ignoredAny, _ => by rw [implOf, de, Impl.run]
  | .option ty, h => by
    rw [implOf, de, Impl.run, Prog.bind_eq]
    congr; funext b
    cases b
    · simp only [Impl.run]; rfl
    · simp only [Impl.run, run_implOf t ty h]; rfl
  | .unit, _ => by rw [implOf, de]; simp only [Impl.run]; rfl
  | .unitStruct _, _ => by rw [implOf, de]; simp only [Impl.run]; rfl
  | .newtypeStruct _ ty, h => by
    rw [implOf, de]; simp only [Impl.run, run_implOf t ty h]; rfl
  | .seq ty, h => by
    rw [implOf, de]
    simp only [Impl.run, run_collectSeq, run_implOf t ty h, Prog.bind_assoc]
    rfl
  | .tuple ts, h => by
    rw [implOf, de]
    simp only [Impl.run, run_implAll t ts h, Prog.bind_assoc]
    rfl
  | .tupleStruct _ ts, h => by
    rw [implOf, de]
    simp only [Impl.run, run_implAll t ts h, Prog.bind_assoc]
    rfl
  | .map kt vt, h => by
    rw [implOf, de]
    simp only [Impl.run, run_collectMap, run_implOf t kt h.1, run_implOf t vt h.2, Prog.bind_assoc]
    rfl
  | .struct _ fs, h => by
    rw [implOf, de]
    simp only [Impl.run]
    have := run_collectFields t [] (implFields fs) [] rfl (by simpa [names_implFields] using h.1)
    simp only [List.nil_append, List.map_nil, length_implFields, ← none_implFields,
      names_implFields] at this
    rw [this, run_implFields t fs h.2]
    simp only [Prog.bind_assoc]
    rfl
  | .enum name vs, h => by
    rw [implOf, de]
    simp only [Impl.run, Prog.bind_assoc]
    rw [Prog.bind_eq]
    congr; funext i
    by_cases hi : i.toNat < vs.length
    · rw [if_pos hi, Impl.run, Prog.bind]
      exact run_implVariant t name i i.toNat vs h hi
    · rw [if_neg hi, Impl.run, Prog.bind, deVariant_none t name i i.toNat vs (by omega),
        show i.toNat - (i.toNat - vs.length) = vs.length by omega]
theorem run_implAll (t : Target) : (ts : List Ty) → AllDistinct ts →
    ∀ {acc : List Val}, (collectTuple (implAll ts) acc).run t (implAll ts).length
      = Prog.bind (deAll t ts) fun vs => .done (.ok (acc ++ vs))
  | [], _, acc => by
    simp [implAll, collectTuple, SeqImpl.run, deAll, Prog.bind]
  | ty :: ts, h, acc => by
    rw [implAll, collectTuple, SeqImpl.run, List.length_cons, if_pos (by omega), deAll,
      Prog.bind_eq, Prog.bind_assoc, run_implOf t ty h.1]
    congr; funext v
    dsimp only
    rw [Nat.add_sub_cancel, run_implAll t ts h.2, Prog.bind_eq, Prog.bind_assoc]
    congr; funext vs
    simp [Prog.bind]
theorem run_implFields (t : Target) : (fs : List (String × Ty)) → FieldsDistinct fs →
    runFields t (implFields fs) = deFields t fs
  | [], _ => by rw [implFields, deFields, runFields]; rfl
  | (n, ty) :: fs, h => by
    rw [implFields, deFields, runFields, run_implOf t ty h.1, run_implFields t fs h.2]; rfl
theorem run_implVariant (t : Target) (name : String) (i : UInt16) : (j : Nat) →
    (vs : List (String × VTy)) → VariantsDistinct vs → j < vs.length →
    (implVariant name i j vs).run t = deVariant t name i j vs
  | j + 1, _ :: vs, h, hj => by
    rw [implVariant, deVariant]
    exact run_implVariant t name i j vs h.2 (by simpa using hj)
  | 0, (vn, vt) :: _, h, _ => by
    rw [implVariant, deVariant]; exact run_implPayload t name _ vn vt h.1
theorem run_implPayload (t : Target) (name : String) (i : UInt32) (vn : String) : (vt : VTy) →
    PayloadDistinct vt → (implPayload name i vn vt).run t = dePayload t name i vn vt
  | .unit, _ => by rw [implPayload, dePayload, VariantImpl.run]; rfl
  | .newtype ty, h => by
    rw [implPayload, dePayload, VariantImpl.run, run_implOf t ty h]; rfl
  | .tuple ts, h => by
    rw [implPayload, dePayload, VariantImpl.run, run_implAll t ts h, Prog.bind_assoc]; rfl
  | .struct fs, h => by
    rw [implPayload, dePayload, VariantImpl.run]
    have := run_collectFields t [] (implFields fs) [] rfl (by simpa [names_implFields] using h.1)
    simp only [List.nil_append, List.map_nil, length_implFields, ← none_implFields,
      names_implFields] at this
    rw [this, run_implFields t fs h.2]
    simp only [Prog.bind_assoc]
    rfl
end

/-! ## Visitors of one kind of element -/

/-- What the reader of a visitor's elements returns, given what the visitor makes
of them. -/
def fed {α β : Type} (enc : List β → List UInt8) (more : List UInt8) :
    Except DeErr α × List β → Outcome DeErr (α × List UInt8)
  | (.ok a, rest) => .ok (a, enc rest ++ more)
  | (.error e, _) => .err e

theorem exec_visitSeq {α β : Type} (t : Target) (fin : Ending) (seed : Impl β)
    (enc : β → List UInt8) (more : List UInt8) :
    (v : Asker β α) → (bs : List β) →
    (∀ b ∈ bs, ∀ rest, Prog.exec t fin (seed.run t) (enc b ++ rest) = .ok (b, rest)) →
    Prog.exec t fin ((v.visitSeq seed).run t bs.length) (bs.flatMap enc ++ more)
      = fed (·.flatMap enc) more (v.feed bs)
  | .ok a, bs, _ => by simp [Asker.visitSeq, SeqImpl.run, Prog.exec, Asker.feed, fed]
  | .error e, bs, _ => by simp [Asker.visitSeq, SeqImpl.run, Prog.exec, Asker.feed, fed]
  | .next k, [], h => by
    rw [Asker.visitSeq, SeqImpl.run, if_neg (by simp), Asker.feed]
    exact exec_visitSeq t fin seed enc more (k none) [] h
  | .next k, b :: bs, h => by
    rw [Asker.visitSeq, SeqImpl.run, if_pos (by simp), Asker.feed, Prog.exec_bind,
      List.flatMap_cons, List.append_assoc, h b (by simp), Prog.next_ok, List.length_cons,
      Nat.add_sub_cancel]
    exact exec_visitSeq t fin seed enc more (k (some b)) bs fun b hb => h b (by simp [hb])

theorem exec_visitMap {α κ β : Type} (t : Target) (fin : Ending) (key : Impl κ) (value : Impl β)
    (enc : κ × β → List UInt8) (more : List UInt8) :
    (v : Asker (κ × β) α) → (es : List (κ × β)) →
    (∀ e ∈ es, ∀ rest, ∃ mid, Prog.exec t fin (key.run t) (enc e ++ rest) = .ok (e.1, mid) ∧
      Prog.exec t fin (value.run t) mid = .ok (e.2, rest)) →
    Prog.exec t fin ((v.visitMap key value).run t es.length) (es.flatMap enc ++ more)
      = fed (·.flatMap enc) more (v.feed es)
  | .ok a, es, _ => by simp [Asker.visitMap, MapImpl.run, Prog.exec, Asker.feed, fed]
  | .error e, es, _ => by simp [Asker.visitMap, MapImpl.run, Prog.exec, Asker.feed, fed]
  | .next k, [], h => by
    rw [Asker.visitMap, MapImpl.run, if_neg (by simp), Asker.feed]
    exact exec_visitMap t fin key value enc more (k none) [] h
  | .next k, e :: es, h => by
    obtain ⟨mid, h1, h2⟩ := h e (by simp) (es.flatMap enc ++ more)
    rw [Asker.visitMap, MapImpl.run, if_pos (by simp), Asker.feed, Prog.exec_bind,
      List.flatMap_cons, List.append_assoc, h1, Prog.next_ok]
    dsimp only
    rw [MapImpl.run, Prog.exec_bind, h2, Prog.next_ok, List.length_cons, Nat.add_sub_cancel]
    exact exec_visitMap t fin key value enc more (k (some e)) es fun e he => h e (by simp [he])

theorem exec_visitKeys {α : Type} (t : Target) (fin : Ending) (bs : List UInt8) :
    (v : Asker String α) → (names : List String) →
    Prog.exec t fin (v.visitKeys.run t names) bs = fed (fun _ => []) bs (v.feed names)
  | .ok a, names => by simp [Asker.visitKeys, FieldsImpl.run, Prog.exec, Asker.feed, fed]
  | .error e, names => by simp [Asker.visitKeys, FieldsImpl.run, Prog.exec, Asker.feed, fed]
  | .next k, [] => by
    rw [Asker.visitKeys, FieldsImpl.run, Asker.feed]
    exact exec_visitKeys t fin bs (k none) []
  | .next k, n :: names => by
    rw [Asker.visitKeys, FieldsImpl.run, Asker.feed]
    exact exec_visitKeys t fin bs (k (some n)) names

end Dlhn
