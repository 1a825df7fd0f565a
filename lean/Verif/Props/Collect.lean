import Verif.Proof.Collect
import Verif.Props.Bounds
import Verif.Props.Targets
/-!
# C107, C108: byte slices as readers, and collecting data until a value is complete

`Prog.runSlice t std p bs` (Model/Slice.lean) is decoding from the slice `bs` with std's own
`read_exact` of slices: the result and the slice afterwards. `std` is the version of std: what
a failed `read_exact` leaves. `SliceStops`, `Receives` and `CompleteIn` are in
Spec/Collect.lean.
-/
namespace Dlhn.Props

open Spec De

/-! ## C107 slices -/

/-- The result of every decoder is the one property statements about byte lists give, in all
versions of std; after a success so is what is left. -/
theorem C107_outcome {ε α : Type} (t : Target) (std : OnShort) (p : Prog ε α) (bs : List UInt8) :
    (∀ v rest, p.runSlice t std bs = (.ok v, rest) ↔ Prog.run t p bs = .ok (v, rest)) ∧
    (∀ e, (p.runSlice t std bs).1 = .err e ↔ Prog.run t p bs = .err e) ∧
    ∀ q, (p.runSlice t std bs).1 = .panic q ↔ Prog.run t p bs = .panic q := by
  rw [Prog.runSlice_run t std]
  cases p.runSlice t std bs with
  | mk o l => cases o <;> simp [withLeft]

example (std : OnShort) : Prog.runSlice ⟨.w64, 4096⟩ std (de ⟨.w64, 4096⟩ (.option .u8)) [1, 7, 5] =
    (.ok (.some (.u8 7)), [5]) := rfl

/-- With the newer versions a slice is left exactly as any other reader that delivers the
same data and then ends, whether decoding succeeds or not. -/
theorem C107_as_readers {ε α : Type} (t : Target) (p : Prog ε α) (size : Nat → Nat) (s : Script)
    (hs : s.Clean) :
    p.runSlice t .toEnd s.bytes =
      ((p.runScriptAt t size s).1, (p.runScriptAt t size s).2.bytes) := by
  rw [Prog.runSlice_toEnd, ← Prog.runScriptAt_clean_any t size p hs]

/-- The older versions differ in what they leave after an error only, and only if the newer
ones leave nothing. -/
theorem C107_versions {ε α : Type} (t : Target) (p : Prog ε α) (bs : List UInt8) :
    (p.runSlice t .stay bs).1 = (p.runSlice t .toEnd bs).1 ∧
    (p.runSlice t .stay bs).2 <:+ bs ∧
    ((p.runSlice t .stay bs).2 ≠ (p.runSlice t .toEnd bs).2 →
      (p.runSlice t .toEnd bs).2 = [] ∧ ∃ e, (p.runSlice t .stay bs).1 = .err e) := by
  refine ⟨?_, Prog.runSlice_suffix t .stay p bs, fun hne => ?_⟩
  · rcases Prog.runSlice_stay t p bs with h | ⟨e, used, -, h2, h3⟩
    · rw [h]
    · rw [h2, h3]
  · rcases Prog.runSlice_stay t p bs with h | ⟨e, used, -, h2, h3⟩
    · rw [h] at hne; exact absurd rfl hne
    · exact ⟨by rw [h3], e, h2⟩

/-- They do differ: half a float is still there with the older versions. -/
example : Prog.runSlice ⟨.w64, 4096⟩ .stay (de ⟨.w64, 4096⟩ .f32) [1, 2] = (.err .read, [1, 2]) ∧
    Prog.runSlice ⟨.w64, 4096⟩ .toEnd (de ⟨.w64, 4096⟩ .f32) [1, 2] = (.err .read, []) :=
  ⟨rfl, rfl⟩

/-- Where decoding leaves a slice: after the bytes that were enough to decide, or the data
did not suffice. By type, ... -/
theorem C107_where (t : Target) (std : OnShort) (ty : Ty) (ht : t.ptr = .w64 ∨ NoText ty)
    (bs left : List UInt8) (o : Outcome DeErr Val) (h : (de t ty).runSlice t std bs = (o, left)) :
    SliceStops t std .read (de t ty) bs o left := by
  have := Prog.sliceStops t std (strict_on ht) bs
  rw [h] at this
  exact this

/-- ... by any implementation that passes errors on, ... -/
theorem C107_where_impl (t : Target) (std : OnShort) {α : Type} (i : Impl α)
    (ht : t.ptr = .w64 ∨ NoTextImpl i)
    (bs left : List UInt8) (o : Outcome DeErr α) (h : (i.run t).runSlice t std bs = (o, left)) :
    SliceStops t std .read (i.run t) bs o left := by
  have := Prog.sliceStops t std (strict_on_impl ht) bs
  rw [h] at this
  exact this

/-- ... of derived types, ... -/
theorem C107_where_derived (t : Target) (std : OnShort) (mode : BuildMode)
    (env : Derive.Env) (T : RTy)
    (ht : t.ptr = .w64 ∨ NoTextDerived T) (bs left : List UInt8) (o : Outcome DeErr (Derive.Carrier T))
    (h : (Derive.deTy t mode env T).runSlice t std bs = (o, left)) :
    SliceStops t std .read (Derive.deTy t mode env T) bs o left := by
  have := Prog.sliceStops t std (Derive.strict_on mode env ht) bs
  rw [h] at this
  exact this

/-- ... of dynamic values, ... -/
theorem C107_where_body (t : Target) (std : OnShort) (mode : BuildMode)
    (slot : Nat) (hd : Header)
    (ht : t.ptr = .w64 ∨ NoTextHeader hd) (bs left : List UInt8) (o : Outcome DeErr Body)
    (h : (Body.de t mode slot hd).runSlice t std bs = (o, left)) :
    SliceStops t std .read (Body.de t mode slot hd) bs o left := by
  have := Prog.sliceStops t std (Body.strict_on mode slot ht) bs
  rw [h] at this
  exact this

/-- ... and of headers. -/
theorem C107_where_header (t : Target) (std : OnShort) (slot d : Nat)
    (bs left : List UInt8) (o : Outcome IoErr Header)
    (h : (Header.deserialize slot d).runSlice t std bs = (o, left)) :
    SliceStops t std .unexpectedEof (Header.deserialize slot d) bs o left := by
  have := Prog.sliceStops t std (Header.strict_deserialize slot d) bs
  rw [h] at this
  exact this

/-- A bad boolean leaves what follows, with every version. -/
example (std : OnShort) :
    Prog.runSlice ⟨.w64, 4096⟩ std (de ⟨.w64, 4096⟩ (.tuple [.bool, .u8])) [9, 5, 6] =
      (.err .read, [5, 6]) := rfl

/-- Decoding again after missing data: with the older versions the second attempt starts in
the middle of the value and can return a value nobody sent, without an error. -/
theorem C107_retry_corrupts (t : Target) : ∃ bs left,
    (de t (.option .f32)).runSlice t .stay bs = (.err .read, left) ∧
    (de t (.option .f32)).runSlice t .stay left = (.ok .none, [5, 5]) ∧
    bs <+: (Ser.toVec (.some (.f32 0x05050500))).1 :=
  ⟨[1, 0, 5, 5], [0, 5, 5], rfl, rfl, by decide +kernel⟩

/-- With the newer versions it fails again, for every type whose values take a byte. -/
theorem C107_retry (t : Target) (hm : 4096 ≤ t.memLimit) (ty : Ty)
   
    (ht : t.ptr = .w64 ∨ NoText ty) (hs : Supported ty) (h0 : 0 < minSize ty) (bs left more : List UInt8)
    (h : (de t ty).runSlice t .toEnd bs = (.err .read, left))
    (hmore : ∃ v rest, (de t ty).runSlice t .toEnd (bs ++ more) = (.ok v, rest)) :
    left = [] ∧ ∃ e, ((de t ty).runSlice t .toEnd left).1 = .err e := by
  have hl : left = [] := by
    rcases C107_where t .toEnd ty ht bs left _ h with ⟨used, rfl, h2, -⟩ | ⟨-, -, h3, -⟩
    · obtain ⟨v, rest, hv⟩ := hmore
      rw [List.append_assoc, h2] at hv
      simp at hv
    · exact h3 rfl
  subst hl
  obtain ⟨e, he⟩ := C103_short t hm ty hs .eof [] h0
  exact ⟨rfl, e, ((C107_outcome t .toEnd _ _).2.1 e).mpr he⟩

example : ∃ left, (de ⟨.w64, 4096⟩ .f32).runSlice ⟨.w64, 4096⟩ .toEnd [1, 2] = (.err .read, left) ∧
    ∃ v rest, (de ⟨.w64, 4096⟩ .f32).runSlice ⟨.w64, 4096⟩ .toEnd ([1, 2] ++ [3, 4, 5]) =
      (.ok v, rest) := ⟨_, rfl, _, _, rfl⟩

/-! ## C108 collecting data -/

/-- Values of a type sent in any pieces: at every moment the caller has emitted exactly the
values of which all bytes have arrived, and holds the bytes of the next one. -/
theorem C108_typed (t : Target) (hm : 4096 ≤ t.memLimit) (std : OnShort) (ty : Ty)
    (hs : Supported ty) (h0 : 0 < minSize ty) (sent : List Val) (hne : sent ≠ [])
    (hv : ∀ v ∈ sent, Has t ty v) (pieces : List (List UInt8))
    (hp : pieces.flatten <+: (sent.map fun v => (Ser.toVec v).1).flatten)
    (vs : List Val) (left : List UInt8) :
    Receives ((de t ty).runSlice t std) [] pieces vs left ↔
      CompleteIn (fun v => (Ser.toVec v).1) sent pieces.flatten vs left := by
  have hc : ∀ v ∈ sent, Codes ((de t ty).runSlice t std) (Ser.toVec v).1 v := fun v h => by
    obtain ⟨enc, h1, h2⟩ := C102_typed t hm ty hs v (hv v h)
    rw [h1]; exact h2.codes std
  have hr : ((de t ty).runSlice t std []).1 = .err .read := by
    obtain ⟨v, l, rfl⟩ := List.exists_cons_of_ne_nil hne
    obtain ⟨enc, h1, h2, -⟩ := C103_typed t ty hs v (hv v List.mem_cons_self)
    have := (hc v List.mem_cons_self).cut [] List.nil_prefix
    rw [h1] at this
    exact this fun he => by
      have he : [] = enc := he
      rw [← he] at h2
      simp at h2
      omega
  rw [receives_iff (fun v => (Ser.toVec v).1) id hr sent hc pieces hp]
  simp

/-- So when everything has arrived, everything has been emitted, in order, once. -/
theorem C108_all (t : Target) (hm : 4096 ≤ t.memLimit) (std : OnShort) (ty : Ty)
    (hs : Supported ty) (h0 : 0 < minSize ty) (sent : List Val) (hne : sent ≠ [])
    (hv : ∀ v ∈ sent, Has t ty v) (pieces : List (List UInt8))
    (hp : pieces.flatten = (sent.map fun v => (Ser.toVec v).1).flatten) (vs : List Val)
    (left : List UInt8) :
    Receives ((de t ty).runSlice t std) [] pieces vs left ↔ vs = sent ∧ left = [] := by
  have key : CompleteIn (fun v => (Ser.toVec v).1) sent pieces.flatten sent [] := by
    refine ⟨List.prefix_refl _, by rw [hp, List.append_nil], fun v h => ?_⟩
    have := h.length_le
    simp only [List.length_append, List.length_singleton] at this
    omega
  have hi := C108_typed t hm std ty hs h0 sent hne hv pieces (hp ▸ List.prefix_refl _)
  constructor
  · intro h
    exact h.unique ((hi sent []).mpr key)
  · rintro ⟨rfl, rfl⟩
    exact (hi _ _).mpr key

/-- Three values in pieces that do not respect their borders. -/
example (std : OnShort) (vs : List Val) (left : List UInt8) :
    Receives ((de ⟨.w32, 4096⟩ .string).runSlice ⟨.w32, 4096⟩ std) []
      [[2], [97, 98, 1], [], [99, 0]] vs left ↔
      vs = [.str "ab", .str "c", .str ""] ∧ left = [] :=
  C108_all _ (by decide) std .string trivial (by decide) _ (by simp)
    (by intro v hv; simp only [List.mem_cons, List.not_mem_nil, or_false] at hv
        rcases hv with rfl | rfl | rfl <;> exact ⟨_, rfl, by decide +kernel⟩) _ (by decide +kernel) vs left

/-- The same for dynamic values. -/
theorem C108_body (t : Target) (hm : 4096 ≤ t.memLimit) (std : OnShort) (mode : BuildMode)
    (size : Nat) (h : Header) (sent : List Body)
    (hv : ∀ b ∈ sent, Body.validate h b = true ∧ Exists t b ∧ CleanDecimals b ∧ DatesFit mode b ∧
      VectorsFit t size b)
    (he : ∃ b ∈ sent, (Body.toVec mode b).1 ≠ []) (pieces : List (List UInt8))
    (hp : pieces.flatten <+: (sent.map fun b => (Body.toVec mode b).1).flatten)
    (bs : List Body) (left : List UInt8) :
    Receives ((Body.de t mode size h).runSlice t std) [] pieces bs left ↔
      CompleteIn (fun b => (Body.toVec mode b).1) sent pieces.flatten bs left := by
  have hc : ∀ b ∈ sent, Codes ((Body.de t mode size h).runSlice t std) (Body.toVec mode b).1 b :=
    fun b hb => by
      obtain ⟨h1, h2, h3, h4, h5⟩ := hv b hb
      obtain ⟨enc, g1, g2⟩ := C102_body t hm mode size h b h1 h2 h3 h4 h5
      rw [g1]; exact g2.codes std
  have hr : ((Body.de t mode size h).runSlice t std []).1 = .err .read := by
    obtain ⟨b, hb, hne⟩ := he
    exact (hc b hb).cut [] List.nil_prefix hne.symm
  rw [receives_iff (fun b => (Body.toVec mode b).1) id hr sent hc pieces hp]
  simp

example (mode : BuildMode) (bs : List Body) (left : List UInt8) :
    Receives ((Body.de ⟨.w32, 4096⟩ mode 56 sampleShape).runSlice ⟨.w32, 4096⟩ .toEnd) []
      [(Body.toVec mode sampleBody).1] bs left ↔
      CompleteIn (fun b => (Body.toVec mode b).1) [sampleBody, sampleBody]
        [(Body.toVec mode sampleBody).1].flatten bs left :=
  C108_body _ (by decide) _ mode _ _ _
    (fun b hb => by
      have : b = sampleBody := by simpa using hb
      subst this
      exact sampleBody_meets _ mode 56 (by decide))
    ⟨sampleBody, List.mem_cons_self, by cases mode <;> decide +kernel⟩ _
    (by simp) bs left

/-- The same for derived types; what is emitted for `v` is what comes back of it
(property C71). -/
theorem C108_derived (t : Target) (hm : 4096 ≤ t.memLimit) (std : OnShort) (mode : BuildMode)
    (env : Derive.Env) (ho : FairOrder env) (T : RTy) (sent : List (Derive.Carrier T))
    (hv : ∀ v ∈ sent, ReadsBack t mode env ⟨T, v⟩)
    (he : ∃ v ∈ sent, (Derive.ser mode T v).exec.1 ≠ []) :
    ∃ back : Derive.Carrier T → Derive.Carrier T, (∀ v ∈ sent, Returned env T v (back v)) ∧
    ∀ (pieces : List (List UInt8)),
      pieces.flatten <+: (sent.map fun v => (Derive.ser mode T v).exec.1).flatten →
      ∀ ws left, Receives ((Derive.deTy t mode env T).runSlice t std) [] pieces ws left ↔
        ∃ vs, ws = vs.map back ∧
          CompleteIn (fun v => (Derive.ser mode T v).exec.1) sent pieces.flatten vs left := by
  have hx : ∀ v, ∃ w, v ∈ sent → Returned env T v w ∧
      Codes ((Derive.deTy t mode env T).runSlice t std) (Derive.ser mode T v).exec.1 w := by
    intro v
    by_cases h : v ∈ sent
    · obtain ⟨w, enc, h1, h2, h3⟩ := C102_derived t hm mode env ho T v (hv v h)
      exact ⟨w, fun _ => ⟨h2, by rw [h1]; exact h3.codes std⟩⟩
    · exact ⟨v, fun h' => absurd h' h⟩
  refine ⟨fun v => (hx v).choose, fun v h => ((hx v).choose_spec h).1, fun pieces hp ws left => ?_⟩
  have hc : ∀ v ∈ sent, Codes ((Derive.deTy t mode env T).runSlice t std)
      (Derive.ser mode T v).exec.1 (hx v).choose := fun v h => ((hx v).choose_spec h).2
  have hr : ((Derive.deTy t mode env T).runSlice t std []).1 = .err .read := by
    obtain ⟨v, h, hne⟩ := he
    exact (hc v h).cut [] List.nil_prefix hne.symm
  exact receives_iff _ _ hr sent hc pieces hp ws left

example (mode : BuildMode) : (∀ v ∈ [recordVal], ReadsBack ⟨.w32, 4096⟩ mode sampleEnv ⟨recordTy, v⟩) ∧
    ∃ v ∈ [recordVal], (Derive.ser mode recordTy v).exec.1 ≠ [] :=
  ⟨fun v hv => by
    have : v = recordVal := by simpa using hv
    subst this
    exact record_reads _ (by decide) mode,
   recordVal, List.mem_cons_self, by cases mode <;> decide +kernel⟩

/-- Whatever arrives, from whomever: what is emitted does not depend on the pieces. -/
theorem C108_pieces (t : Target) (std : OnShort) {α : Type} (i : Impl α)
    (ht : t.ptr = .w64 ∨ NoTextImpl i)
    (pieces : List (List UInt8)) (hne : pieces ≠ []) (vs : List α) (left : List UInt8) :
    Receives ((i.run t).runSlice t std) [] pieces vs left ↔
      Drains ((i.run t).runSlice t std) pieces.flatten vs left := by
  obtain ⟨c, cs, rfl⟩ := List.exists_cons_of_ne_nil hne
  exact receives_any (Prog.Strict.settles (strict_on_impl ht) std)

/-- Bad data are not told from missing data: after a bad boolean the caller waits for ever,
whatever else arrives. -/
theorem C108_stuck (t : Target) (std : OnShort) (b : UInt8) (hb0 : b ≠ 0) (hb1 : b ≠ 1)
    (more : List UInt8) :
    Drains ((de t .bool).runSlice t std) (b :: more) [] (b :: more) := by
  have h : Prog.run t (de t .bool) (b :: more) = .err .read := by
    rw [C15_bool, if_neg hb0, if_neg hb1]
  exact .wait (left := ((de t .bool).runSlice t std (b :: more)).2)
    (by rw [← ((C107_outcome t std (de t .bool) (b :: more)).2.1 .read).mpr h])

/-- Values that take no bytes are emitted for ever: the loop does not end, on any data. -/
theorem C108_endless (t : Target) (hm : 4096 ≤ t.memLimit) (std : OnShort) (ty : Ty)
    (hs : Supported ty) (v : Val) (hv : Has t ty v) (h : Ser.toVec v = ([], .ok ()))
    (buf left : List UInt8) (vs : List Val) :
    ¬ Drains ((de t ty).runSlice t std) buf vs left := by
  obtain ⟨enc, h1, h2⟩ := C102_typed t hm ty hs v hv
  rw [h] at h1
  simp only [Prod.mk.injEq, and_true] at h1
  subst h1
  have hw := (h2.codes std).whole
  intro hd
  induction hd with
  | @wait b l hx => rw [show b = [] ++ b from rfl, hw] at hx; simp at hx
  | value _ _ ih => exact ih

example : ¬ Drains ((de ⟨.w64, 4096⟩ (.tuple [.unit, .unit])).runSlice ⟨.w64, 4096⟩ .stay) [7] [] [7] :=
  C108_endless _ (by decide) _ _ (by simp [Supported, AllSupported]) (.tuple [.unit, .unit])
    (by simp [Has, HasAll]) rfl _ _ _

end Dlhn.Props
