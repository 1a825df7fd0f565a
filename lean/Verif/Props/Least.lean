import Verif.Proof.Least
import Verif.Proof.ReadSize
import Verif.Proof.StdTypes
import Verif.Props.HistoryAll
/-!
# C130, C94: the loop over dynamic values and derived types ends; the size of derived values

`ReadsOut` is in Spec/Log.lean, `minBody` in Spec/Bounds.lean, `leastRead`, `readSize` and
`DenseRead` in Spec/Least.lean.
-/
namespace Dlhn.Props

open Spec De PrefixVarint

variable {σ : Type} {step : RStep σ}

/-- Dynamic values: the loop ends on every reader that always answers, is not interrupted without
end and has finitely many bytes, whatever they are. (Under headers for which decoding never
panics, property C62.) -/
theorem C130_ends_body (hl : step.Lawful) (hlive : step.Live) {room : σ → Nat}
    (hr : step.Holds room) (t : Target) (hm : 4096 ≤ t.memLimit) (mode : BuildMode) (size : Nat)
    (h : Header) (ha : ∀ h', .array h' ∉ headerParts h)
    (ht : ∀ hs, .tuple hs ∈ headerParts h → t.allocate (hs.length * size) = none)
    (hd : .date ∈ headerParts h → mode = .release) (hx : t.ptr = .w64 ∨ NoTextHeader h)
    (h0 : 0 < minBody h) (s : σ) :
    ∃ cs bs e s', ReadsOut step t (Body.de t mode size h) s cs bs e s' := by
  refine ReadsOut.exists hl hlive hr (fun {s s' cs o} hrun => ?_) s
  have he : Explained t (Body.de t mode size h) cs o := C117_body hl t mode size h hx hrun
  have hret := C62_no_panic t hm mode size h ha ht hd (handed cs)
  cases o with
  | ok b =>
    have := C103_body_consumes t mode size h .eof (handed cs) [] b he.1
    exact .inl ⟨b, rfl, by simp at this; omega⟩
  | err e => exact .inr ⟨e, rfl⟩
  | panic q => rw [he.1] at hret; exact hret.elim

/-- And it returns no more values than the bytes that were delivered allow. -/
theorem C130_bounded_body (hl : step.Lawful) (t : Target) (mode : BuildMode) (size : Nat)
    (h : Header) (hx : t.ptr = .w64 ∨ NoTextHeader h) {s s' : σ} {cs : List ReadRes}
    {bs : List Body} {e : DeErr} (hr : ReadsOut step t (Body.de t mode size h) s cs bs e s') :
    bs.length * minBody h ≤ (handed cs).length := by
  induction hr with
  | stop h => simp
  | @next s s' s'' cs ds b bs e hrun more ih =>
    have he : Explained t (Body.de t mode size h) cs (.ok b) := C117_body hl t mode size h hx hrun
    have := C103_body_consumes t mode size h .eof (handed cs) [] b he.1
    rw [handed_append, List.length_append, List.length_cons, Nat.succ_mul]
    simp at this
    omega

/-- If a value under the header takes no bytes the loop does not end, on any reader. -/
theorem C130_endless_body (hl : step.Lawful) (t : Target) (hm : 4096 ≤ t.memLimit)
    (mode : BuildMode) (size : Nat) (h : Header) (b : Body) (hb : Body.validate h b = true)
    (he : Exists t b) (hc : CleanDecimals b) (hd : DatesFit mode b) (hf : VectorsFit t size b)
    (h0 : Body.toVec mode b = ([], .ok ())) (s : σ) :
    ¬ ∃ cs bs e s', ReadsOut step t (Body.de t mode size h) s cs bs e s' := by
  rintro ⟨cs, bs, e, s', hr⟩
  obtain ⟨enc, g1, g2⟩ := C35_roundtrip t hm mode size h b hb he hc hd hf
  obtain rfl : [] = enc := congrArg Prod.fst (h0.symm.trans g1)
  have hx := Prog.complete_of_rest t (g2 [0]) (by simp)
  obtain ⟨used, e1, e2, -⟩ := Prog.complete_split t hx
  rw [← List.append_cancel_right e1] at e2
  exact hr.endless hl (Body.tame_de t mode size h) e2

/-- Derived types: every value is read from so many bytes or more. -/
theorem C130_least (t : Target) (mode : BuildMode) (env : Derive.Env) (T : RTy) (fin : Ending)
    (bs rest : List UInt8) (v : Derive.Carrier T)
    (h : Prog.exec t fin (Derive.deTy t mode env T) bs = .ok (v, rest)) :
    leastRead T + rest.length ≤ bs.length := by
  obtain ⟨n, hn, hl⟩ := Derive.least_ty t mode env T fin bs v rest h
  omega

/-- The loop over values of a derived type ends. (For types for which decoding never panics,
property C75.) -/
theorem C130_ends_derived (hl : step.Lawful) (hlive : step.Live) {room : σ → Nat}
    (hr : step.Holds room) (t : Target) (hm : 4096 ≤ t.memLimit) (mode : BuildMode)
    (env : Derive.Env) (T : RTy) (hb : .str ∉ readParts T ∧ .bytes ∉ readParts T)
    (hd : mode = .debug → .date ∉ readParts T ∧ .timeDate ∉ readParts T)
    (hi : .offsetDateTime ∉ readParts T) (hx : t.ptr = .w64 ∨ NoTextDerived T)
    (h0 : 0 < leastRead T) (s : σ) :
    ∃ cs vs e s', ReadsOut step t (Derive.deTy t mode env T) s cs vs e s' := by
  refine ReadsOut.exists hl hlive hr (fun {s s' cs o} hrun => ?_) s
  have he : Explained t (Derive.deTy t mode env T) cs o := C117_derived hl t mode env T hx hrun
  have hret := (Derive.total_deTy hm mode env T hb hd hi).exec .eof (handed cs)
  cases o with
  | ok v =>
    have := C130_least t mode env T .eof (handed cs) [] v he.1
    exact .inl ⟨v, rfl, by simp at this; omega⟩
  | err e => exact .inr ⟨e, rfl⟩
  | panic q =>
    have h1 : Prog.exec t .eof (Derive.deTy t mode env T) (handed cs) = .panic q := he.1
    rw [h1] at hret; exact hret.elim

/-- And it returns no more values than the bytes that were delivered allow. -/
theorem C130_bounded_derived (hl : step.Lawful) (t : Target) (mode : BuildMode)
    (env : Derive.Env) (T : RTy) (hx : t.ptr = .w64 ∨ NoTextDerived T) {s s' : σ}
    {cs : List ReadRes} {vs : List (Derive.Carrier T)} {e : DeErr}
    (hr : ReadsOut step t (Derive.deTy t mode env T) s cs vs e s') :
    vs.length * leastRead T ≤ (handed cs).length := by
  induction hr with
  | stop h => simp
  | @next s s' s'' cs ds v vs e hrun more ih =>
    have he : Explained t (Derive.deTy t mode env T) cs (.ok v) :=
      C117_derived hl t mode env T hx hrun
    have := C130_least t mode env T .eof (handed cs) [] v he.1
    rw [handed_append, List.length_append, List.length_cons, Nat.succ_mul]
    simp at this
    omega

/-- If a value of a derived type takes no bytes the loop does not end, on any reader. -/
theorem C130_endless_derived (hl : step.Lawful) (t : Target) (hm : 4096 ≤ t.memLimit)
    (mode : BuildMode) (env : Derive.Env) (ho : FairOrder env) (T : RTy) (v : Derive.Carrier T)
    (hv : ReadsBack t mode env ⟨T, v⟩) (h0 : (Derive.ser mode T v).exec = ([], .ok ())) (s : σ) :
    ¬ ∃ cs vs e s', ReadsOut step t (Derive.deTy t mode env T) s cs vs e s' := by
  rintro ⟨cs, vs, e, s', hr⟩
  obtain ⟨h1, h2, h3, h4, h5, h6⟩ := hv
  obtain ⟨w, bs, hs, -, hrun⟩ := C71_roundtrip t hm mode env ho T h1 h2 h3 v h4 h5 h6
  obtain rfl : [] = bs := congrArg Prod.fst (h0.symm.trans hs)
  have hx := Prog.complete_of_rest t (hrun .eof [0]) (by simp)
  obtain ⟨used, e1, e2, -⟩ := Prog.complete_split t hx
  rw [← List.append_cancel_right e1] at e2
  exact hr.endless hl (Derive.tame_deTy t mode env T) e2

/-- `struct P { b: String, c: Vec<u8> }`: on every file the loop
ends, with at most half as many values as there are bytes. -/
example (mode : BuildMode) (env : Derive.Env) (data : List UInt8) :
    ∃ cs vs e s', ReadsOut fileStep ⟨.w64, 4096⟩ (Derive.deTy ⟨.w64, 4096⟩ mode env
        (.struct "P" (.named [.mk [] "b" .string, .mk [] "c" (.vec .u8)]))) data cs vs e s' ∧
      vs.length * 2 ≤ (handed cs).length := by
  have hs : ¬ SkippedDe [] := by decide
  obtain ⟨cs, vs, e, s', h⟩ := C130_ends_derived fileStep_lawful fileStep_live fileStep_holds
    ⟨.w64, 4096⟩ (by decide) mode env
    (.struct "P" (.named [.mk [] "b" .string, .mk [] "c" (.vec .u8)]))
    (by simp [readParts, readPartsFields, hs]) (by simp [readParts, readPartsFields, hs])
    (by simp [readParts, readPartsFields, hs]) (.inl rfl)
    (by simp [leastRead, leastReadFields, hs]) data
  refine ⟨cs, vs, e, s', h, ?_⟩
  have := C130_bounded_derived fileStep_lawful ⟨.w64, 4096⟩ mode env _ (.inl rfl) h
  simpa [leastRead, leastReadFields, hs] using this

/-- Pairs of a text and a boolean, under their header. -/
example (mode : BuildMode) (data : List UInt8) :
    ∃ cs bs e s', ReadsOut fileStep ⟨.w64, 4096⟩ (Body.de ⟨.w64, 4096⟩ mode 32
        (.tuple [.string, .boolean])) data cs bs e s' ∧ bs.length * 2 ≤ (handed cs).length := by
  obtain ⟨cs, vs, e, s', h⟩ := C130_ends_body fileStep_lawful fileStep_live fileStep_holds
    ⟨.w64, 4096⟩ (by decide) mode 32 (.tuple [.string, .boolean])
    (by simp [headerParts, headersParts])
    (by
      intro hs h
      simp [headerParts, headersParts] at h
      subst h
      decide)
    (by simp [headerParts, headersParts]) (.inl rfl) (by decide) data
  exact ⟨cs, vs, e, s', h, C130_bounded_body fileStep_lawful ⟨.w64, 4096⟩ mode 32
    (.tuple [.string, .boolean]) (.inl rfl) h⟩

/-- Units. -/
example (mode : BuildMode) (data : List UInt8) : ¬ ∃ cs bs e s',
    ReadsOut fileStep ⟨.w64, 4096⟩ (Body.de ⟨.w64, 4096⟩ mode 32 .unit) data cs bs e s' :=
  C130_endless_body fileStep_lawful _ (by decide) mode 32 .unit .unit rfl (by simp [Spec.Exists, LengthsFit, parts])
    (by simp [CleanDecimals, parts]) (by simp [DatesFit, parts]) (by simp [VectorsFit, parts]) rfl data

/-! ## C94 -/

/-- A value of a derived type has at most as many parts that are read as its type has, times the
number of bytes it was read from (or one). -/
theorem C94_derived (t : Target) (mode : BuildMode) (env : Derive.Env) (ho : FairOrder env) (T : RTy)
    (hd : DenseRead T) (fin : Ending) (bs rest : List UInt8) (v : Derive.Carrier T)
    (hx : Prog.exec t fin (Derive.deTy t mode env T) bs = .ok (v, rest)) :
    readSize T v ≤ (readParts T).length * max (bs.length - rest.length) 1 := by
  obtain ⟨n, hn, h⟩ := Derive.size_ty t mode env ho T hd fin bs v rest hx
  rw [show bs.length - rest.length = n by omega]
  exact h

/-- Without the condition there is no bound: a count decodes to any number of units. -/
theorem C94_derived_needed (t : Target) (mode : BuildMode) (env : Derive.Env) (n : Nat)
    (hn : n < 2 ^ t.ptr.bits) :
    ∃ v : Derive.Carrier (.vec .unit),
      Prog.run t (Derive.deTy t mode env (.vec .unit)) (varint 64 n) = .ok (v, []) ∧
        readSize (.vec .unit) v = n + 1 ∧ (varint 64 n).length ≤ 9 := by
  have h64 : n < 2 ^ 64 := lt_64_of_lt_bits hn
  have hu : Prog.run t (io decodeU64) (varint 64 n ++ []) = .ok (UInt64.ofNat n, []) := by
    rw [Prog.run, exec_u64_varint t .eof _ h64]
  have ht : ∀ k, times k (Derive.deTy t mode env .unit) = .done (.ok (List.replicate k ())) := by
    intro k
    induction k with
    | zero => rfl
    | succ k ih => rw [times, ih, Derive.deTy]; rfl
  refine ⟨List.replicate n (), ?_, ?_, ?_⟩
  · rw [Derive.deTy, ← List.append_nil (varint 64 n)]
    refine (StdTypes.reads_bind hu).trans ?_
    rw [asUsize_ofNat hn, ht]
    rfl
  · simp only [readSize]
    rw [List.map_replicate, List.sum_replicate_nat]
    simp
    omega
  · rw [length_varint]
    exact Nat.min_le_right _ _

/-- `struct S { a: Vec<(u8, ())>, b: Option<HashMap<String, E>> }` -/
example (t : Target) (mode : BuildMode) (env : Derive.Env) (ho : FairOrder env) (fin : Ending)
    (bs rest : List UInt8) (v : Derive.Carrier (.struct "S" (.named
      [.mk [] "a" (.vec (.tuple [.u8, .unit])), .mk [] "b" (.option (.hashMap (.enum "E" [])))])))
    (hx : Prog.exec t fin (Derive.deTy t mode env _) bs = .ok (v, rest)) :
    readSize _ v ≤ 8 * max (bs.length - rest.length) 1 := by
  have hs : ¬ SkippedDe [] := by decide
  have h := C94_derived t mode env ho _ (by
    intro U hU
    simp [readParts, readPartsAll, readPartsFields, readPartsVariants, hs] at hU
    subst hU
    simp [leastRead, leastReadAll]) fin bs rest v hx
  simpa [readParts, readPartsAll, readPartsFields, readPartsVariants, hs] using h

end Dlhn.Props
