import Verif.Proof.DeriveRead
import Verif.Props.DeriveAgree
/-!
# C80–C83: types that share a header, streams of values, unambiguous encodings
-/
namespace Dlhn.Props

open Spec hiding variantFields
open Derive

theorem readPart_of {env : Env} {T : RTy} (hr : Readable T) (hp : Plain T) (hs : Symmetric T)
    (hd : Defaulted env T) : ∀ U ∈ typeParts T, ReadPart env (ChecksTime T) (HasNumDecimal T) U :=
  fun U hU => ⟨hr U hU, hp U hU, hs U hU, hd U hU, fun h => ⟨U, hU, h⟩, fun h => by
    subst h; exact hU⟩

/-! ## C80 reading dynamic values by type -/

/-- Every body that is valid for the header of a type is read by the type, from the
bytes the body serializes to, as a value with the same content. -/
theorem C80_read (t : Target) (hm : 4096 ≤ t.memLimit) (mode : BuildMode) (env : Env)
    (ho : FairOrder env) (T : RTy) (h : Header) (hT : Announces T h) (hr : Readable T)
    (hp : Plain T) (hs : Symmetric T) (hd : Defaulted env T) (b : Body)
    (hv : Body.validate h b = true) (he : Exists t b) (hc : CleanDecimals b)
    (hdate : DatesFit mode b) (ht : ChecksTime T → TimesExist b)
    (hn : HasNumDecimal T → DigitsDenote b) :
    ∃ bs w, Body.toVec mode b = (bs, .ok ()) ∧ SameContent T w b ∧
      ∀ fin rest, Prog.exec t fin (deTy t mode env T) (bs ++ rest) = .ok (w, rest) := by
  obtain ⟨w, h1, h2⟩ := takes_body (mode := mode) env ho hm T h ((announces_iff T h).mp hT).1
    (readPart_of hr hp hs hd) b ((Body.validate_iff h b).mp hv) ⟨he, hc, hdate, ht, hn⟩ _
    (spells_wire b)
  exact ⟨bodyWire b, w, C35_encoding t mode b he hdate, h1, h2⟩

/-! ## C81 types with the same header -/

/-- If two types announce the same header, the second reads what the first writes, as
a value with the same content: some body mirrors the value that was written and says
the same as the value that was read. -/
theorem C81_interchange (t : Target) (hm : 4096 ≤ t.memLimit) (mode : BuildMode) (env : Env)
    (ho : FairOrder env) (T U : RTy) (h : Header) (hT : Announces T h) (hU : Announces U h)
    (hpT : Plain T) (hr : Readable U) (hp : Plain U) (hs : Symmetric U) (hd : Defaulted env U)
    (v : Carrier T) (hv : Real t T v) (hdate : DatesRebase mode T v)
    (ht : ChecksTime U → TimesExistIn T v) (hn : HasNumDecimal U → DigitsDenoteIn T v) :
    ∃ bs b w, (ser mode T v).exec = (bs, .ok ()) ∧ Mirrors T v b ∧ SameContent U w b ∧
      ∀ fin rest, Prog.exec t fin (deTy t mode env U) (bs ++ rest) = .ok (w, rest) := by
  obtain ⟨hT, hc⟩ := (announces_iff T h).mp hT
  have ha0 : ∀ n, t.allocate (n * 0) = none := fun n => by simp [Target.allocate]
  obtain ⟨b, bs, hM, ha⟩ := agree (N := ChecksTime U) (D := HasNumDecimal U) t mode 0 hm T h hT hc hpT
    (fun hs _ => ha0 _) v fun p hpp => ⟨hv p hpp, fun U vs _ => ha0 _,
      fun hmode d he => hdate hmode d (he ▸ hpp), fun hN d he => (ht hN).1 d (he ▸ hpp),
      fun hN d he => (ht hN).2.1 d (he ▸ hpp), fun hN d he => (ht hN).2.2 d (he ▸ hpp),
      fun hD x he => hn hD x (he ▸ hpp)⟩
  have hconf := Body.returns_conforms t mode 0 h .eof _ _ _ (ha.decodes .eof [])
  obtain ⟨w, h1, h2⟩ := takes_body (mode := mode) env ho hm U h ((announces_iff U h).mp hU).1
    (readPart_of hr hp hs hd) b hconf ha.good bs ha.spells
  exact ⟨bs, b, w, ha.bytes, hM, h1, h2⟩

/-- `(BTreeMap<String, dlhn::BigUint>, dlhn::Date)` announces the same header as `Ledger`. -/
def mirrorTy : RTy := .tuple [.btreeMap .bigUint, .date]

theorem mirror_meets (env : Env) : Announces mirrorTy ledgerHeader ∧ Readable mirrorTy ∧
    Plain mirrorTy ∧ Symmetric mirrorTy ∧ Defaulted env mirrorTy ∧ ¬ ChecksTime mirrorTy ∧
    ¬ HasNumDecimal mirrorTy := by
  have hp : typeParts mirrorTy = [mirrorTy, .btreeMap .bigUint, .bigUint, .date] := by
    simp [mirrorTy, typeParts, typePartsAll]
  refine ⟨(announces_iff _ _).mpr ⟨.tuple _ _ (by decide) (by decide)
      (.cons _ _ _ _ (.btreeMap _ _ .bigUint) (.cons _ _ _ _ .date .nil)),
      by simp [ledgerHeader, Countable, AllCountable]⟩, ?_, ?_, ?_, ?_, ?_, ?_⟩
  · intro U hU
    rw [hp] at hU
    simp only [List.mem_cons, List.not_mem_nil, or_false] at hU
    rcases hU with rfl | rfl | rfl | rfl <;> simp [mirrorTy, ReadablePart]
  · intro U hU
    rw [hp] at hU
    simp only [List.mem_cons, List.not_mem_nil, or_false] at hU
    rcases hU with rfl | rfl | rfl | rfl <;> simp [mirrorTy, PlainPart]
  · intro U hU
    rw [hp] at hU
    simp only [List.mem_cons, List.not_mem_nil, or_false] at hU
    rcases hU with rfl | rfl | rfl | rfl <;> simp [mirrorTy, SymmetricPart]
  · intro U hU
    rw [hp] at hU
    simp only [List.mem_cons, List.not_mem_nil, or_false] at hU
    rcases hU with rfl | rfl | rfl | rfl <;> simp [mirrorTy, DefaultedPart]
  · rintro ⟨U, hU, hc⟩
    rw [hp] at hU
    simp only [List.mem_cons, List.not_mem_nil, or_false] at hU
    rcases hU with rfl | rfl | rfl | rfl <;> exact hc
  · rw [HasNumDecimal, hp]
    simp [mirrorTy]

/-- A value of `Ledger` whose `HashMap` iterates in an order that is not that of the keys. -/
def ledgerVal : Carrier ledgerTy := ([("b", 300), ("a", 7)], ⟨2002, 1⟩, ())

/-- Written as `Ledger`, read as the tuple: the entries come back in key order. -/
example (mode : BuildMode) :
    (ser mode ledgerTy ledgerVal).exec.1 = [2, 1, 98, 2, 44, 1, 1, 97, 1, 7, 4, 0] ∧
    Prog.run ⟨.w64, 4096⟩ (deTy ⟨.w64, 4096⟩ mode sampleEnv mirrorTy)
        [2, 1, 98, 2, 44, 1, 1, 97, 1, 7, 4, 0] =
      .ok (([("a", ⟨[7]⟩), ("b", ⟨[44, 1]⟩)], ⟨2002, 1⟩, ()), []) := by
  cases mode <;> exact ⟨by decide +kernel, rfl⟩

theorem ledger_real (t : Target) (mode : BuildMode) :
    Plain ledgerTy ∧ Real t ledgerTy ledgerVal ∧ DatesRebase mode ledgerTy ledgerVal := by
  have k1 : ¬ Skipped [] := by decide
  have hv : valueParts ledgerTy ledgerVal = [⟨ledgerTy, ledgerVal⟩,
      ⟨.hashMap .numBigUint, [("b", 300), ("a", 7)]⟩, ⟨.numBigUint, (300 : Nat)⟩,
      ⟨.numBigUint, (7 : Nat)⟩, ⟨.timeDate, (⟨2002, 1⟩ : Time.Date)⟩] := by
    simp [ledgerTy, ledgerVal, valueParts, valuePartsFields, k1]
  have hb : 2 < 2 ^ t.ptr.bits := by cases t.ptr <;> decide
  refine ⟨?_, ?_, ?_⟩
  · intro U hU
    have := (ledger_meets sampleEnv).2.1 U hU
    cases U <;> first | exact this.2.1 | trivial | exact this.elim
  · intro p hp
    rw [hv] at hp
    simp only [List.mem_cons, List.not_mem_nil, or_false] at hp
    have h1 : (utf8 "a").length = 1 := by decide
    have h2 : (utf8 "b").length = 1 := by decide
    rcases hp with rfl | rfl | rfl | rfl | rfl
    · trivial
    · have : 1 < 2 ^ t.ptr.bits := by omega
      simp [RealPart, h1, h2, hb, this]
    · have hs : (BigUint.ofNum 300).bytes = [44, 1] := by decide +kernel
      exact ⟨_, BigUint.shortest 300, by rw [hs]; exact hb⟩
    · have hs : (BigUint.ofNum 7).bytes = [7] := by decide +kernel
      exact ⟨_, BigUint.shortest 7, by rw [hs]; exact Nat.lt_trans (by decide) hb⟩
    · show Time.Date.Valid ⟨2002, 1⟩
      exact ⟨by decide, by decide, by decide, Or.inl (by decide)⟩
  · intro _ d hd
    rw [hv] at hd
    simp only [List.mem_cons, List.not_mem_nil, or_false] at hd
    rcases hd with hd | hd | hd | hd | hd <;> exact absurd (congrArg Sigma.fst hd) (by simp [ledgerTy])

/-- The theorem applies to it, on every target. -/
example (t : Target) (hm : 4096 ≤ t.memLimit) (mode : BuildMode) (env : Env) (ho : FairOrder env) :
    ∃ bs b w, (ser mode ledgerTy ledgerVal).exec = (bs, .ok ()) ∧ Mirrors ledgerTy ledgerVal b ∧
      SameContent mirrorTy w b ∧ ∀ fin rest,
        Prog.exec t fin (deTy t mode env mirrorTy) (bs ++ rest) = .ok (w, rest) := by
  obtain ⟨h1, h2, h3, h4, h5, h6, h7⟩ := mirror_meets env
  obtain ⟨g1, g2, g3⟩ := ledger_real t mode
  exact C81_interchange t hm mode env ho ledgerTy mirrorTy ledgerHeader (ledger_meets env).1 h1 g1
    h2 h3 h4 h5 ledgerVal g2 g3 (fun h => absurd h h6) fun h => absurd h h7

/-- A body that is not the encoding of a typed value (the number has a leading zero) is
read by `Ledger`. -/
example (t : Target) (hm : 4096 ≤ t.memLimit) (mode : BuildMode) (env : Env) (ho : FairOrder env) :
    ∃ bs w, Body.toVec mode (.tuple [.map [("a", .bigUInt ⟨[7, 0]⟩)], .date ⟨2002, 1⟩]) =
        (bs, .ok ()) ∧
      SameContent ledgerTy w (.tuple [.map [("a", .bigUInt ⟨[7, 0]⟩)], .date ⟨2002, 1⟩]) ∧
      ∀ fin rest, Prog.exec t fin (deTy t mode env ledgerTy) (bs ++ rest) = .ok (w, rest) := by
  obtain ⟨h1, h2, h3, -⟩ := ledger_meets env
  have hb : 2 < 2 ^ t.ptr.bits := by cases t.ptr <;> decide
  have hb1 : 1 < 2 ^ t.ptr.bits := by omega
  have ha : (utf8 "a").length = 1 := by decide
  have hday : ExistingDay (2002 : Int32).toInt (1 : UInt16).toNat :=
    ⟨by decide, by decide, by decide, Or.inl (by decide)⟩
  have hcp : ∀ U ∈ typeParts ledgerTy, ReadablePart U ∧ PlainPart U ∧ SymmetricPart U := by
    intro U hU
    have := h2 U hU
    cases U <;> first | exact this | exact this.elim
  refine C80_read t hm mode env ho ledgerTy ledgerHeader h1 (fun U hU => (hcp U hU).1)
    (fun U hU => (hcp U hU).2.1) (fun U hU => (hcp U hU).2.2) h3 _ (by rfl) ?_ ?_ ?_ ?_ ?_
  · intro c hc
    simp only [parts, partsAll, partsEntries, List.mem_cons, List.mem_append, List.not_mem_nil,
      or_false, List.append_nil] at hc
    rcases hc with rfl | (rfl | rfl) | rfl <;>
      simp [LengthsFit, hb, hb1, ha, Ascending]
  · intro v hv
    simp [parts, partsAll, partsEntries] at hv
  · intro _ d hd
    simp [parts, partsAll, partsEntries] at hd
    subst hd
    exact ExistingDay.fits hday
  · intro _
    refine ⟨fun d hd => ?_, fun d hd => ?_⟩
    · simp [parts, partsAll, partsEntries] at hd
      subst hd
      exact hday
    · simp [parts, partsAll, partsEntries] at hd
  · intro _ v hv
    simp [parts, partsAll, partsEntries] at hv

/-! ## C82 a header and a stream of values -/

/-- `T::serialize_header` once, then any number of values of `T`: a reader that knows
no types decodes the header and then value after value, each to a body that mirrors
it, and is left with what follows. -/
theorem C82_stream (t : Target) (hm : 4096 ≤ t.memLimit) (mode : BuildMode) (size hsize d : Nat)
    (hmem : 65535 * hsize ≤ t.memLimit) (hptr : 65535 * hsize ≤ t.isizeMax) (T : RTy) (h : Header)
    (hT : Announces T h) (hdep : depth h ≤ d) (hp : Plain T) (vs : List (Carrier T))
    (hv : ∀ v ∈ vs, Real t T v ∧ DatesRebase mode T v ∧ MemoryFits t size h T v) :
    ∃ p hbs, serializeHeader T = .ok p ∧ p.exec = (hbs, .ok ()) ∧
    ∃ bss : List (List UInt8), Pointwise (fun v bs => (ser mode T v).exec = (bs, .ok ())) vs bss ∧
      ∀ rest, Prog.run t (Header.deserialize hsize d) (hbs ++ bss.flatten ++ rest) =
          .ok (h, bss.flatten ++ rest) ∧
        ∀ (i : Nat) (hi : i < vs.length), ∃ b, Mirrors T vs[i] b ∧
          Prog.run t (Body.de t mode size h) ((bss.drop i).flatten ++ rest) =
            .ok (b, (bss.drop (i + 1)).flatten ++ rest) := by
  obtain ⟨hd, hc⟩ := (announces_iff T h).mp hT
  obtain ⟨p, hq, hx, hok, hrun⟩ := C34_header T h hd hc t hsize d hmem hptr hdep
  refine ⟨p, p.exec.1, hq, by rw [← hok], ?_⟩
  have key : ∃ bss : List (List UInt8),
      Pointwise (fun v bs => (ser mode T v).exec = (bs, .ok ())) vs bss ∧
      ∀ rest (i : Nat) (hi : i < vs.length), ∃ b, Mirrors T vs[i] b ∧
          Prog.run t (Body.de t mode size h) ((bss.drop i).flatten ++ rest) =
            .ok (b, (bss.drop (i + 1)).flatten ++ rest) := by
    clear hrun
    induction vs with
    | nil => exact ⟨[], trivial, fun _ i hi => absurd hi (Nat.not_lt_zero i)⟩
    | cons v vs ih =>
      obtain ⟨bss, h1, h2⟩ := ih fun w hw => hv w (List.mem_cons_of_mem _ hw)
      obtain ⟨g1, g2, g3⟩ := hv v List.mem_cons_self
      obtain ⟨b, bs, e1, e2, -, e4, -⟩ := C38_agree t hm mode size T h hT hp v g1 g2 g3
      refine ⟨bs :: bss, ⟨e1, h1⟩, fun rest i hi => ?_⟩
      cases i with
      | zero =>
        refine ⟨b, e2, ?_⟩
        rw [List.drop_zero, List.flatten_cons, List.append_assoc, e4]
        rfl
      | succ i => exact h2 rest i (Nat.lt_of_succ_lt_succ hi)
  obtain ⟨bss, h1, h2⟩ := key
  exact ⟨bss, h1, fun rest => ⟨by rw [List.append_assoc]; exact hrun _, h2 rest⟩⟩

/-- If the stream ends inside a value, or before one that is not written as nothing,
reading that value reports it. -/
theorem C82_torn (t : Target) (hm : 4096 ≤ t.memLimit) (mode : BuildMode)
    (size : Nat) (T : RTy) (h : Header) (hT : Announces T h) (hp : Plain T) (v : Carrier T)
    (hv : Real t T v) (hd : DatesRebase mode T v) (hf : MemoryFits t size h T v) (bs : List UInt8)
    (hx : (ser mode T v).exec = (bs, .ok ())) (k : Nat) (hk : k < bs.length) :
    Prog.run t (Body.de t mode size h) (bs.take k) = .err .read := by
  obtain ⟨b, bs', e1, -, -, e4, -⟩ := C38_agree t hm mode size T h hT hp v hv hd hf
  rw [hx] at e1
  cases e1
  refine (Prog.recognised (Body.tame_de t mode size h) (e4 [0]) (by simp)).slice _
    (List.take_prefix _ _) fun he => ?_
  have := congrArg List.length he
  rw [List.length_take] at this
  omega

/-- Two sample records behind their header. -/
example (t : Target) (hm : 4096 ≤ t.memLimit) (hmem : 65535 ≤ t.memLimit)
    (h3 : t.allocate 3 = none) (mode : BuildMode) :
    ∃ p hbs, serializeHeader recordTy = .ok p ∧ p.exec = (hbs, .ok ()) ∧
    ∃ bss : List (List UInt8),
      Pointwise (fun v bs => (ser mode recordTy v).exec = (bs, .ok ())) [recordVal, recordVal] bss ∧
      ∀ rest, Prog.run t (Header.deserialize 1 9) (hbs ++ bss.flatten ++ rest) =
          .ok (recordHeader, bss.flatten ++ rest) ∧
        ∀ (i : Nat) (hi : i < 2), ∃ b, Mirrors recordTy [recordVal, recordVal][i] b ∧
          Prog.run t (Body.de t mode 1 recordHeader) ((bss.drop i).flatten ++ rest) =
            .ok (b, (bss.drop (i + 1)).flatten ++ rest) := by
  obtain ⟨h1, h2, h3, h4⟩ := record_meets t mode 1 h3
  refine C82_stream t hm mode 1 1 9 hmem ?_ recordTy recordHeader record_announced (by decide) h1
    [recordVal, recordVal] fun v hv => ?_
  · rw [Target.isizeMax]
    cases t.ptr <;> decide
  · simp only [List.mem_cons, List.not_mem_nil, or_false, or_self] at hv
    exact hv ▸ ⟨h2, h3, h4⟩

/-- A record cut after its first two bytes. -/
example (t : Target) (hm : 4096 ≤ t.memLimit) (h3 : t.allocate 3 = none)
    (mode : BuildMode) :
    Prog.run t (Body.de t mode 1 recordHeader) ((ser mode recordTy recordVal).exec.1.take 2) =
      .err .read := by
  obtain ⟨h1, h2, h3, h4⟩ := record_meets t mode 1 h3
  obtain ⟨b, bs, e1, -⟩ := C38_agree t hm mode 1 _ _ record_announced h1 _ h2 h3 h4
  refine C82_torn t hm mode 1 recordTy recordHeader record_announced h1 recordVal h2 h3 h4 _
    (by rw [e1]) 2 ?_
  cases mode <;> decide +kernel

/-! ## C83 unambiguous encodings -/

/-- If the bytes of one value begin the bytes of another value of the same type, both
are read as the same value. -/
theorem C83_prefix (t : Target) (hm : 4096 ≤ t.memLimit) (mode : BuildMode) (env : Env)
    (ho : FairOrder env) (T : RTy) (hr : Readable T) (hs : Symmetric T) (hd : Defaulted env T)
    (v w : Carrier T) (hv : Real t T v) (hdv : DatesRebase mode T v) (hiv : InstantsInRange T v)
    (hw : Real t T w) (hdw : DatesRebase mode T w) (hiw : InstantsInRange T w)
    (hp : (ser mode T v).exec.1 <+: (ser mode T w).exec.1) :
    (∃ x, Returned env T v x ∧ Returned env T w x) ∧
      (ser mode T v).exec.1 = (ser mode T w).exec.1 := by
  obtain ⟨x, bs, e1, e2, e3⟩ := C71_roundtrip t hm mode env ho T hr hs hd v hv hdv hiv
  obtain ⟨y, cs, f1, f2, f3⟩ := C71_roundtrip t hm mode env ho T hr hs hd w hw hdw hiw
  rw [e1, f1] at hp ⊢
  obtain ⟨r, hr⟩ := hp
  simp only at hr ⊢
  have h1 := e3 .eof r
  have h2 := f3 .eof []
  rw [List.append_nil, ← hr, h1] at h2
  simp only [Outcome.ok.injEq, Prod.mk.injEq] at h2
  obtain ⟨rfl, rfl⟩ := h2
  exact ⟨⟨x, e2, f2⟩, by simpa using hr⟩

/-- For types that lose nothing it is the same value. -/
theorem C83_prefix_free (t : Target) (hm : 4096 ≤ t.memLimit) (mode : BuildMode) (env : Env)
    (ho : FairOrder env) (T : RTy) (hr : Readable T) (hs : Symmetric T) (hd : Defaulted env T)
    (hl : Lossless T) (v w : Carrier T) (hv : Real t T v) (hdv : DatesRebase mode T v)
    (hw : Real t T w) (hdw : DatesRebase mode T w)
    (hp : (ser mode T v).exec.1 <+: (ser mode T w).exec.1) : v = w := by
  obtain ⟨bs, e1, e3⟩ := C71_exact t hm mode env ho T hr hs hd hl v hv hdv
  obtain ⟨cs, f1, f3⟩ := C71_exact t hm mode env ho T hr hs hd hl w hw hdw
  rw [e1, f1] at hp
  obtain ⟨r, hr⟩ := hp
  simp only at hr
  have h1 := e3 .eof r
  have h2 := f3 .eof []
  rw [List.append_nil, ← hr, h1] at h2
  simp only [Outcome.ok.injEq, Prod.mk.injEq] at h2
  exact h2.1

/-- Streams of equally many values of such a type are equal only if the values are. -/
theorem C83_stream (t : Target) (hm : 4096 ≤ t.memLimit) (mode : BuildMode) (env : Env)
    (ho : FairOrder env) (T : RTy) (hr : Readable T) (hs : Symmetric T) (hd : Defaulted env T)
    (hl : Lossless T) (vs ws : List (Carrier T))
    (hv : ∀ v ∈ vs, Real t T v ∧ DatesRebase mode T v)
    (hw : ∀ w ∈ ws, Real t T w ∧ DatesRebase mode T w) (hlen : vs.length = ws.length)
    (he : (vs.map fun v => (ser mode T v).exec.1).flatten =
      (ws.map fun w => (ser mode T w).exec.1).flatten) : vs = ws := by
  induction vs generalizing ws with
  | nil => exact (List.length_eq_zero_iff.mp (by simpa using hlen.symm)).symm
  | cons v vs ih =>
    cases ws with
    | nil => simp at hlen
    | cons w ws =>
      obtain ⟨a1, a2⟩ := hv v List.mem_cons_self
      obtain ⟨b1, b2⟩ := hw w List.mem_cons_self
      simp only [List.map_cons, List.flatten_cons] at he
      have hvw : v = w := by
        rcases List.append_eq_append_iff.mp he with ⟨r, hr1, -⟩ | ⟨r, hr1, -⟩
        · exact C83_prefix_free t hm mode env ho T hr hs hd hl v w a1 a2 b1 b2 ⟨r, hr1.symm⟩
        · exact (C83_prefix_free t hm mode env ho T hr hs hd hl w v b1 b2 a1 a2 ⟨r, hr1.symm⟩).symm
      subst hvw
      rw [ih ws (fun x hx => hv x (List.mem_cons_of_mem _ hx))
        (fun x hx => hw x (List.mem_cons_of_mem _ hx)) (by simpa using hlen)
        (List.append_cancel_left he)]

/-- `Vec<Option<u16>>` meets the hypotheses. -/
theorem options_meet (t : Target) (mode : BuildMode) (env : Env) :
    Readable (.vec (.option .u16)) ∧ Symmetric (.vec (.option .u16)) ∧
    Defaulted env (.vec (.option .u16)) ∧ Lossless (.vec (.option .u16)) ∧
    Real t (.vec (.option .u16)) [none, some 300] ∧
    DatesRebase mode (.vec (.option .u16)) [none, some 300] := by
  have hp : typeParts (.vec (.option .u16)) = [.vec (.option .u16), .option .u16, .u16] := by
    simp [typeParts]
  have hv : valueParts (.vec (.option .u16)) [none, some 300] =
      [⟨.vec (.option .u16), [none, some 300]⟩, ⟨.option .u16, none⟩,
        ⟨.option .u16, some 300⟩, ⟨.u16, (300 : UInt16)⟩] := by
    simp [valueParts]
  have hb : 2 < 2 ^ t.ptr.bits := by cases t.ptr <;> decide
  refine ⟨?_, ?_, ?_, ?_, ?_, ?_⟩
  · intro U hU
    rw [hp] at hU
    simp only [List.mem_cons, List.not_mem_nil, or_false] at hU
    rcases hU with rfl | rfl | rfl <;> simp [ReadablePart]
  · intro U hU
    rw [hp] at hU
    simp only [List.mem_cons, List.not_mem_nil, or_false] at hU
    rcases hU with rfl | rfl | rfl <;> simp [SymmetricPart]
  · intro U hU
    rw [hp] at hU
    simp only [List.mem_cons, List.not_mem_nil, or_false] at hU
    rcases hU with rfl | rfl | rfl <;> simp [DefaultedPart]
  · intro U hU
    rw [hp] at hU
    simp only [List.mem_cons, List.not_mem_nil, or_false] at hU
    rcases hU with rfl | rfl | rfl <;> simp [LosslessPart]
  · intro p hpp
    rw [hv] at hpp
    simp only [List.mem_cons, List.not_mem_nil, or_false] at hpp
    rcases hpp with rfl | rfl | rfl | rfl
    · exact hb
    · trivial
    · trivial
    · trivial
  · intro _ d hd
    rw [hv] at hd
    simp only [List.mem_cons, List.not_mem_nil, or_false] at hd
    rcases hd with hd | hd | hd | hd <;> exact absurd (congrArg Sigma.fst hd) (by simp)

/-- Only the same list shares its encoding. -/
example (t : Target) (hm : 4096 ≤ t.memLimit) (mode : BuildMode)
    (w : List (Option UInt16)) (hw : Real t (.vec (.option .u16)) w)
    (hd : DatesRebase mode (.vec (.option .u16)) w)
    (hp : (ser mode (.vec (.option .u16)) [none, some 300]).exec.1 <+:
      (ser mode (.vec (.option .u16)) w).exec.1) : [none, some 300] = w := by
  obtain ⟨h1, h2, h3, h4, h5, h6⟩ := options_meet t mode sampleEnv
  exact C83_prefix_free t hm mode sampleEnv sample_fair _ h1 h2 h3 h4 _ w h5 h6 hw hd hp

/-- The numbers of values have to agree: units are written as nothing. -/
example (mode : BuildMode) : ([(), ()].map fun v => (ser mode .unit v).exec.1).flatten =
    ([()].map fun v => (ser mode .unit v).exec.1).flatten := rfl

end Dlhn.Props
