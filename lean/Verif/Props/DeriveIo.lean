import Verif.Proof.DeriveDeGen
import Verif.Proof.DeriveSer
import Verif.Proof.Targets
import Verif.Props.DeriveDe
import Verif.Props.Records
import Verif.Props.Date
/-!
# C74-C76: derived types on streams, hostile input and failing writers
-/
namespace Dlhn.Props

open Spec hiding variantFields
open Derive

/-! ## C74 streams -/

/-- `T::deserialize` of every type reports truncation as `Err(Read)`, depends only
on the bytes it consumes and not on how the reader delivers them. -/
theorem C74_streams (t : Target) (mode : BuildMode) (env : Env) (T : RTy)
    (ht : t.ptr = .w64 ∨ NoTextDerived T) :
    StreamsWell t (deTy t mode env T) :=
  streams_of_strict (Derive.strict_on mode env ht)

/-- Writing values of several types one after the other. -/
def writeValues (mode : BuildMode) : List (Σ T, Carrier T) → WProg SerErr
  | [] => .skip
  | ⟨T, v⟩ :: items => (ser mode T v).andThen (writeValues mode items)

/-- Reading values of the types of `items` one after the other; each has to be what
should come back. The rest of the input is returned. -/
def readsValues (t : Target) (mode : BuildMode) (env : Env) :
    List (Σ T, Carrier T) → List UInt8 → List UInt8 → Prop
  | [], bs, rest => bs = rest
  | ⟨T, v⟩ :: items, bs, rest => ∃ w bs', Prog.run t (deTy t mode env T) bs = .ok (w, bs') ∧
      Returned env T v w ∧ readsValues t mode env items bs' rest

/-- A value that C71 reads back. -/
def ReadsBack (t : Target) (mode : BuildMode) (env : Env) (x : Σ T, Carrier T) : Prop :=
  Readable x.1 ∧ Symmetric x.1 ∧ Defaulted env x.1 ∧ Real t x.1 x.2 ∧ DatesRebase mode x.1 x.2 ∧
    InstantsInRange x.1 x.2

/-- Any number of values of any types written to one stream are read back one after
the other, and nothing of what follows is consumed. -/
theorem C74_sequence (t : Target) (hm : 4096 ≤ t.memLimit) (mode : BuildMode) (env : Env)
    (ho : FairOrder env) (items : List (Σ T, Carrier T))
    (h : ∀ x ∈ items, ReadsBack t mode env x) :
    ∃ bs, (writeValues mode items).exec = (bs, .ok ()) ∧
      ∀ rest, readsValues t mode env items (bs ++ rest) rest := by
  induction items with
  | nil => exact ⟨[], rfl, fun _ => rfl⟩
  | cons x items ih =>
    obtain ⟨T, v⟩ := x
    obtain ⟨bs, hb, hr⟩ := ih fun y hy => h y (List.mem_cons_of_mem _ hy)
    obtain ⟨h1, h2, h3, h4, h5, h6⟩ := h _ List.mem_cons_self
    obtain ⟨w, b, hs, hw, hx⟩ := C71_roundtrip t hm mode env ho T h1 h2 h3 v h4 h5 h6
    refine ⟨b ++ bs, ?_, fun rest => ⟨w, bs ++ rest, ?_, hw, hr rest⟩⟩
    · rw [writeValues, WProg.exec_andThen_ok hs, hb]
    · rw [List.append_assoc]
      exact hx .eof _

/-- Two sample records in a row. -/
example (t : Target) (h3 : t.allocate 3 = none) (mode : BuildMode) :
    ∀ x ∈ ([⟨recordTy, recordVal⟩, ⟨recordTy, recordVal⟩] : List (Σ T, Carrier T)),
      ReadsBack t mode sampleEnv x := by
  intro x hx
  have : x = ⟨recordTy, recordVal⟩ := by simpa using hx
  subst this
  exact record_reads t h3 mode

/-! ## C75 hostile input -/

/-- The only ways not to return: a borrowed string or byte slice is asked for, a
date overflows in a build with overflow checks, a timestamp leaves the supported
range. -/
theorem C75_panics (t : Target) (hm : 4096 ≤ t.memLimit) (mode : BuildMode) (env : Env) (T : RTy)
    (fin : Ending) (bs : List UInt8) (q : PanicKind)
    (hx : Prog.exec t fin (deTy t mode env T) bs = .panic q) :
    (q = .todo ∧ (.str ∈ readParts T ∨ .bytes ∈ readParts T)) ∨
    (q = .overflow ∧ mode = .debug ∧ (.date ∈ readParts T ∨ .timeDate ∈ readParts T)) ∨
    (q = .timeRange ∧ .offsetDateTime ∈ readParts T) := by
  refine panicsIn_deTy hm mode env T (fun q => (q = .todo ∧ (.str ∈ readParts T ∨ .bytes ∈ readParts T)) ∨
    (q = .overflow ∧ mode = .debug ∧ (.date ∈ readParts T ∨ .timeDate ∈ readParts T)) ∨
    (q = .timeRange ∧ .offsetDateTime ∈ readParts T)) (fun h => .inl ⟨rfl, h⟩)
    (fun h => ?_) (fun h => .inr (.inr ⟨rfl, h⟩)) fin bs q hx
  cases mode with
  | release => exact .inl rfl
  | debug => exact .inr (.inr (.inl ⟨rfl, rfl, h⟩))

/-- Without these types every input from every reader gives `Ok` or `Err`. -/
theorem C75_returns (t : Target) (hm : 4096 ≤ t.memLimit) (mode : BuildMode) (env : Env) (T : RTy)
    (hb : .str ∉ readParts T ∧ .bytes ∉ readParts T)
    (hd : mode = .debug → .date ∉ readParts T ∧ .timeDate ∉ readParts T)
    (hi : .offsetDateTime ∉ readParts T) (bufs : Nat → Nat) (s : Script) :
    (Prog.runScript t bufs (deTy t mode env T) s).returns :=
  (total_deTy hm mode env T hb hd hi).runScript bufs s

/-- No explicit allocation is larger than 4096 bytes, whatever lengths the input
announces. -/
theorem C75_alloc (t : Target) (mode : BuildMode) (env : Env) (T : RTy) (fin : Ending)
    (bs : List UInt8) : ∀ n ∈ Prog.requests t fin (deTy t mode env T) bs, n ≤ 4096 :=
  (allocLe_deTy t mode env T).requests t fin bs

/-- The sample record, whose skipped field is of an unknown type, always returns. -/
example (t : Target) (hm : 4096 ≤ t.memLimit) (mode : BuildMode) (env : Env) (bufs : Nat → Nat)
    (s : Script) : (Prog.runScript t bufs (deTy t mode env recordTy) s).returns := by
  have d1 : ¬ SkippedDe [] := by decide
  have d2 : SkippedDe [skipAttr] := by decide
  have d3 : ¬ SkippedDe [docAttr] := by decide
  refine C75_returns t hm mode env _ ?_ (fun _ => ?_) ?_ bufs s <;>
    simp [recordTy, shapeTy, readParts, readPartsFields, readPartsVariants, readPartsPayload,
      d1, d2, d3]

/-- A date can panic in a build with overflow checks. -/
example (t : Target) (env : Env) :
    Prog.run t (deTy t .debug env .date) (wireDate Int32.maxValue 0 ++ []) = .panic .overflow := by
  rw [deTy, C51_decode, if_pos (by decide)]

/-! ## C76 writers -/

/-- Short writes and interruptions do not change what is written. -/
theorem C76_benign (mode : BuildMode) (T : RTy) (v : Carrier T) (s : WScript)
    (hs : ∀ ev ∈ s, ev = .interrupted ∨ ∃ n, ev = .accept (n + 1)) :
    (ser mode T v).runScript s = (ser mode T v).exec :=
  WProg.runScript_benign _ s hs

/-- On every writer the outcome is that of a writer accepting everything, or
`Err(Write)` after a strict prefix. -/
theorem C76_prefix (mode : BuildMode) (T : RTy) (v : Carrier T) (s : WScript) :
    (ser mode T v).runScript s = (ser mode T v).exec ∨
    (((ser mode T v).runScript s).2 = .err .write ∧
      ((ser mode T v).runScript s).1 <+: (ser mode T v).exec.1 ∧
      ((ser mode T v).runScript s).1 ≠ (ser mode T v).exec.1) := by
  rcases WProg.runScript_prefix (wclosed_ser wclosed_maps mode (.inr trivial) T v) s with
    h | ⟨⟨_, h1⟩, h2, h3⟩
  · exact .inl h
  · exact .inr ⟨h1, h2, h3⟩

/-- Serializing panics only by overflow, and only in builds with overflow checks. -/
theorem C76_panics (mode : BuildMode) (T : RTy) (v : Carrier T) (s : WScript) (q : PanicKind)
    (hx : ((ser mode T v).runScript s).2 = .panic q) : q = .overflow ∧ mode = .debug := by
  refine ⟨(wclosed_ser wclosed_overflowOnly mode (.inr rfl) T v).runScript s q hx, ?_⟩
  cases mode with
  | debug => rfl
  | release =>
    have := (wclosed_ser wclosed_good .release (.inl rfl) T v).runScript s
    rw [hx] at this
    exact this.elim

/-- What a failed write left behind is never taken for a value of the type. -/
theorem C76_torn (t : Target) (hm : 4096 ≤ t.memLimit) (mode : BuildMode)
    (env : Env) (ho : FairOrder env) (x : Σ T, Carrier T) (hx : ReadsBack t mode env x)
    (s : WScript) (hfail : ((ser mode x.1 x.2).runScript s).2 ≠ .ok ()) :
    Prog.run t (deTy t mode env x.1) ((ser mode x.1 x.2).runScript s).1 = .err .read := by
  obtain ⟨h1, h2, h3, h4, h5, h6⟩ := hx
  obtain ⟨w, bs, hs, -, hr⟩ := C71_roundtrip t hm mode env ho x.1 h1 h2 h3 x.2 h4 h5 h6
  rcases C76_prefix mode x.1 x.2 s with h | ⟨-, hp, hne⟩
  · rw [h, hs] at hfail; exact absurd rfl hfail
  · rw [hs] at hp hne
    exact (Prog.recognised (tame_deTy t mode env x.1) (hr .eof [0]) (by simp)).slice _ hp hne

/-- A disk that is full after two bytes. -/
example (mode : BuildMode) :
    (ser mode (.vec .u8) [7, 8, 9]).runScript [.accept 1, .accept 1, .accept 0]
      = ([3, 7], .err .write) := by
  have : ser mode (.vec .u8) [7, 8, 9] = (Ser.serHint (some 3)).andThen
      ((Ser.serU8 7).andThen ((Ser.serU8 8).andThen ((Ser.serU8 9).andThen .skip))) := by
    rw [ser]
    simp only [serSeq, ser, List.length_cons, List.length_nil]
  rw [this]
  decide +kernel

end Dlhn.Props
