import Verif.Proof.SerImpl
import Verif.Proof.Declared
import Verif.Proof.HumanReadable
import Verif.Props.Typed
/-!
# C97-C99: hand-written `Serialize` implementations, map keys, declared lengths

A `SerImpl` (Model/SerImpl.lean) is any code that uses the serializer and the
compound serializers it hands out. `SerImpl.run` is what it does: `exec` on a
`Vec<u8>`, `runScript` on an arbitrary writer. `written` (Spec/SerImpl.lean) is what
the format says it writes.
-/
namespace Dlhn.Props

open Spec De

/-! ## C97 guarantees for every implementation -/

/-- A hand-written implementation: a list of unknown length, whose second element is
left out if the first cannot be serialized; a compact form of a string; a struct with
a skipped field. -/
def sampleSer (first : SerImpl) : SerImpl :=
  .tuple 3 <| .element (.seq none <| .element first fun
      | none => .element (.u8 7) fun _ => .finish
      | some _ => .finish) fun
    | some e => .error e
    | none => .element (.humanReadable fun
        | true => .collectStr "seven"
        | false => .u16 300) fun
      | some e => .error e
      | none => .element (.struct "S" 2 <| .skipField "a" fun _ => .field "b" (.some (.str "x")) fun
          | some e => .error e
          | none => .finish) fun
        | some e => .error e
        | none => .finish

/-- On a `Vec<u8>` an implementation writes the bytes of the values it presents, one
after the other, and returns its own error or the first one it was given and passed
on. -/
theorem C97_written (p : SerImpl) :
    p.run.exec = ((written p).1, toResult (written p).2) := exec_run p

example : (sampleSer (.u8 5)).run.exec = ([5, 7, 172, 4, 1, 1, 120], .ok ()) ∧
    (sampleSer (.i128 5)).run.exec = ([172, 4, 1, 1, 120], .ok ()) ∧
    (SerImpl.some (.error (.message "no"))).run.exec = ([1], .err (.message "no")) := by
  decide +kernel

/-- Short writes and interruptions make no difference. -/
theorem C97_short_writes (p : SerImpl) (s : WScript)
    (h : ∀ ev ∈ s, ev = .interrupted ∨ ∃ n, ev = .accept (n + 1)) :
    p.run.runScript s = p.run.exec := WCode.runScript_benign p.run s h

/-- The serializer never panics, on any writer. -/
theorem C97_returns (p : SerImpl) (s : WScript) : (p.run.runScript s).2.returns := by
  have := (calm_run p).runScript s
  cases h : (p.run.runScript s).2 with
  | ok u => trivial
  | err e => trivial
  | panic q => exact absurd h (this q)

/-- If the implementation passes errors on, a failing writer yields `Err(Write)` and
holds a strict prefix of what a `Vec` would. -/
theorem C97_failing_writer (p : SerImpl) (h : PassesOn p) (s : WScript) :
    p.run.runScript s = p.run.exec ∨
    ((p.run.runScript s).2 = .err .write ∧ (p.run.runScript s).1 <+: p.run.exec.1 ∧
      (p.run.runScript s).1 ≠ p.run.exec.1) := by
  obtain ⟨q, hq, he⟩ := stops_run p h
  rw [he, WCode.runScript_ofProg, WCode.exec_ofProg]
  rcases WProg.runScript_prefix hq.maps s with h | ⟨⟨x, h1⟩, h2⟩
  · exact .inl h
  · exact .inr ⟨h1, h2⟩

example (n : Nat) : PassesOn (.humanReadable fun readable =>
    if readable then .collectStr (toString n) else .seq (some 1) (.element (.u64 (.ofNat n)) fun
      | none => .finish
      | some e => .error e)) := by
  simp [PassesOn, PassesOnSeq]

/-- So `Ok` means that everything was written. -/
theorem C97_ok (p : SerImpl) (h : PassesOn p) (s : WScript)
    (hok : (p.run.runScript s).2 = .ok ()) :
    (written p).2 = none ∧ (p.run.runScript s).1 = (written p).1 := by
  rcases C97_failing_writer p h s with he | ⟨h1, -⟩
  · rw [he, C97_written] at hok
    rw [he, C97_written]
    refine ⟨?_, rfl⟩
    cases hw : (written p).2 with
    | none => rfl
    | some e => rw [hw] at hok; cases hok
  · rw [h1] at hok; cases hok

/-- Whatever the implementation makes of errors, the writer is given the bytes a `Vec`
would be given until a write fails. -/
theorem C97_until_failure (p : SerImpl) (s : WScript) :
    p.run.runScript s = p.run.exec ∨
    ∃ pre, pre <+: p.run.exec.1 ∧ pre ≠ p.run.exec.1 ∧ pre <+: (p.run.runScript s).1 :=
  WCode.runScript_first p.run s

/-- But an implementation that ignores the error of an element can return `Ok` although
the writer failed, so the assumption of `C97_ok` is needed. -/
theorem C97_swallowed : ∃ (p : SerImpl) (s : WScript),
    (p.run.runScript s).2 = .ok () ∧ (p.run.runScript s).1 ≠ (written p).1 :=
  ⟨.tuple 1 (.element (.u8 1) fun _ => .finish), [.fail (.other 0)], by decide +kernel⟩

/-- The implementations of serde and serde_derive pass errors on and do what `Ser.ser`
says. -/
theorem C97_standard (v : Val) : PassesOn (implOfVal v) ∧
    (implOfVal v).run.exec = Ser.toVec v ∧
    ∀ s, (implOfVal v).run.runScript s = (Ser.ser v).runScript s := by
  refine ⟨passesOn_implOfVal v, ?_, fun s => ?_⟩
  · rw [run_implOfVal, WCode.exec_ofProg]; rfl
  · rw [run_implOfVal, WCode.runScript_ofProg]

/-! ## C98 map keys -/

/-- A map all of whose keys are strings when serialized for humans, and whose values
can be serialized, is written as its number of entries and, for each, the string and
the value. -/
theorem C98_keys (es : List (SerImpl × SerImpl)) (text : SerImpl → String)
    (hk : ∀ e ∈ es, keyText e.1 = some (text e.1)) (hv : ∀ e ∈ es, (written e.2).2 = none) :
    (collectMapSer es).run.exec
      = (lengthWire es.length ++ es.flatMap fun e => counted (utf8 (text e.1)) ++ (written e.2).1,
        .ok ()) := by
  have h : ∀ es : List (SerImpl × SerImpl), (∀ e ∈ es, keyText e.1 = some (text e.1)) →
      (∀ e ∈ es, (written e.2).2 = none) → writtenMap (collectMapSer.go es)
        = (es.flatMap fun e => counted (utf8 (text e.1)) ++ (written e.2).1, none) := by
    intro es
    induction es with
    | nil => intros; rfl
    | cons e es ih =>
      intro hk hv
      obtain ⟨k, v⟩ := e
      have h1 := hk (k, v) List.mem_cons_self
      have h2 := hv (k, v) List.mem_cons_self
      dsimp only at h1 h2
      rw [collectMapSer.go, writtenMap, h1]
      simp only [following]
      rw [writtenMap]
      simp only [following, h2]
      rw [ih (fun e he => hk e (List.mem_cons_of_mem _ he))
        (fun e he => hv e (List.mem_cons_of_mem _ he))]
      simp
  rw [C97_written, collectMapSer, written, h es hk hv]
  rfl

/-- The first key that is not one makes it an error; nothing is written of it. -/
theorem C98_bad_key (pre post : List (SerImpl × SerImpl)) (k v : SerImpl) (text : SerImpl → String)
    (hk : ∀ e ∈ pre, keyText e.1 = some (text e.1)) (hv : ∀ e ∈ pre, (written e.2).2 = none)
    (hbad : keyText k = none) :
    (collectMapSer (pre ++ (k, v) :: post)).run.exec
      = (lengthWire (pre.length + 1 + post.length)
          ++ pre.flatMap (fun e => counted (utf8 (text e.1)) ++ (written e.2).1),
        .err (keyError k)) := by
  have h : ∀ es : List (SerImpl × SerImpl), (∀ e ∈ es, keyText e.1 = some (text e.1)) →
      (∀ e ∈ es, (written e.2).2 = none) → writtenMap (collectMapSer.go (es ++ (k, v) :: post))
        = (es.flatMap fun e => counted (utf8 (text e.1)) ++ (written e.2).1,
          some (keyError k)) := by
    intro es
    induction es with
    | nil => intros; simp only [List.nil_append, collectMapSer.go, writtenMap, hbad]; rfl
    | cons e es ih =>
      intro hk hv
      obtain ⟨k, v⟩ := e
      have h1 := hk (k, v) List.mem_cons_self
      have h2 := hv (k, v) List.mem_cons_self
      dsimp only at h1 h2
      rw [List.cons_append, collectMapSer.go, writtenMap, h1]
      simp only [following]
      rw [writtenMap]
      simp only [following, h2]
      rw [ih (fun e he => hk e (List.mem_cons_of_mem _ he))
        (fun e he => hv e (List.mem_cons_of_mem _ he))]
      simp
  rw [C97_written, collectMapSer, written, h pre hk hv]
  simp only [List.length_append, List.length_cons, toResult]
  congr 3
  omega

example : keyText (.humanReadable fun
      | true => .collectStr "k"
      | false => .u8 1) = some "k" ∧
    keyText (.char 'k') = none ∧ keyError (.char 'k') = .unsupportedKeyType ∧
    keyText (.newtypeStruct "N" (.str "k")) = none := ⟨rfl, rfl, rfl, rfl⟩

/-- `Ipv4Addr` as a value is its four octets and is read back. -/
theorem C98_ipv4_value (t : Target) (ip : Ipv4) (rest : List UInt8) :
    ip.serImpl.run.exec = ([ip.a, ip.b, ip.c, ip.d], .ok ()) ∧
    Prog.run t (Ipv4.deImpl.run t) ([ip.a, ip.b, ip.c, ip.d] ++ rest) = .ok (ip, rest) := by
  refine ⟨?_, ?_⟩
  · rw [Ipv4.serImpl, SerImpl.run, run_implOfVal, WCode.exec_ofProg]; rfl
  · simp [Ipv4.deImpl, Impl.run, SeqImpl.run, Prog.run, Prog.exec_bind, deU8_wire t .eof, Prog.exec]

/-- As the key of a map it is written as text, but read as four octets: the reader
takes the length of the text and its first three characters for the address, the
fourth for the value, and leaves the other characters and the value in the stream. -/
theorem C98_ipv4_key (t : Target) (ip : Ipv4) (x : UInt8) (rest : List UInt8) :
    ∃ t0 t1 t2 t3 tail, utf8 ip.text = t0 :: t1 :: t2 :: t3 :: tail ∧
      Prog.run t ((Impl.map fun n => collectMap Ipv4.deImpl .u8 (n + 1) []).run t)
          ((collectMapSer [(ip.serImpl, .u8 x)]).run.exec.1 ++ rest)
        = .ok ([(⟨UInt8.ofNat (utf8 ip.text).length, t0, t1, t2⟩, t3)], tail ++ x :: rest) := by
  have hl := text_length ip
  obtain ⟨t0, t1, t2, t3, tail, ht⟩ : ∃ t0 t1 t2 t3 tail,
      utf8 ip.text = t0 :: t1 :: t2 :: t3 :: tail := by
    match h : utf8 ip.text with
    | t0 :: t1 :: t2 :: t3 :: tail => exact ⟨t0, t1, t2, t3, tail, rfl⟩
    | [_, _, _] | [_, _] | [_] | [] => rw [h] at hl; simp at hl
  refine ⟨t0, t1, t2, t3, tail, ht, ?_⟩
  have hw := C98_keys [(ip.serImpl, .u8 x)] (fun _ => ip.text) (by simp [Ipv4.serImpl, keyText])
    (by simp [written])
  have hlen : lengthWire (utf8 ip.text).length = [UInt8.ofNat (utf8 ip.text).length] := by
    rw [lengthWire, Nat.mod_eq_of_lt (by omega)]
    generalize (utf8 ip.text).length = n at hl
    have : n = 7 ∨ n = 8 ∨ n = 9 ∨ n = 10 ∨ n = 11 ∨ n = 12 ∨ n = 13 ∨ n = 14 ∨ n = 15 := by omega
    rcases this with rfl | rfl | rfl | rfl | rfl | rfl | rfl | rfl | rfl <;> decide +kernel
  have h1 : lengthWire 1 = varint 64 1 := rfl
  rw [hw]
  simp only [List.length_singleton, h1, List.flatMap_cons, List.flatMap_nil, List.append_nil,
    counted, hlen, written, List.append_assoc]
  rw [ht]
  have hu : t.asUsize 1 = 1 := by
    refine asUsize_ofNat (t := t) (n := 1) ?_
    have : t.ptr.bits ≠ 0 := by cases t.ptr <;> decide
    exact Nat.one_lt_two_pow this
  simp only [Impl.run]
  rw [Prog.run, Prog.exec_bind, exec_u64_varint _ _ _ (by decide), Prog.next_ok]
  have : t.asUsize (UInt64.ofNat 1) = 1 := hu
  rw [this]
  simp [collectMap, MapImpl.run, Ipv4.deImpl, Impl.run, SeqImpl.run, Prog.exec_bind,
    deU8_wire t .eof, Prog.exec]

/-- So a map with such a key is never read back: always some of it is left in the
stream, and the entry is right for one address and value only. -/
theorem C98_ipv4_lost (t : Target) (ip : Ipv4) (x : UInt8) (rest r : List UInt8)
    (es : List (Ipv4 × UInt8))
    (h : Prog.run t ((Impl.map fun n => collectMap Ipv4.deImpl .u8 (n + 1) []).run t)
        ((collectMapSer [(ip.serImpl, .u8 x)]).run.exec.1 ++ rest) = .ok (es, r)) :
    rest.length < r.length ∧ (es = [(ip, x)] ↔ ip = ⟨11, 49, 49, 46⟩ ∧ x = 52) := by
  obtain ⟨t0, t1, t2, t3, tail, ht, hr⟩ := C98_ipv4_key t ip x rest
  rw [hr] at h
  simp only [Outcome.ok.injEq, Prod.mk.injEq] at h
  obtain ⟨rfl, rfl⟩ := h
  refine ⟨by simp only [List.length_append, List.length_cons]; omega, fun he => ?_, fun ⟨hi, hx⟩ => ?_⟩
  · simp only [List.cons.injEq, Prod.mk.injEq, and_true] at he
    obtain ⟨h1, h2⟩ := he
    have hip := only_address ip (by rw [ht] at h1 ⊢; exact h1.symm)
    refine ⟨hip, ?_⟩
    subst hip
    have h4 : (utf8 (Ipv4.text ⟨11, 49, 49, 46⟩)).getD 3 0 = 52 := by decide +kernel
    rw [ht] at h4
    exact h2.symm.trans h4
  · subst hi hx
    have h4 : utf8 (Ipv4.text ⟨11, 49, 49, 46⟩) = [49, 49, 46, 52, 57, 46, 52, 57, 46, 52, 54] := by
      decide +kernel
    rw [h4] at ht ⊢
    simp only [List.cons.injEq] at ht
    obtain ⟨rfl, rfl, rfl, rfl, -⟩ := ht
    rfl

example : (collectMapSer [((⟨127, 0, 0, 1⟩ : Ipv4).serImpl, .u8 7)]).run.exec
    = ([1, 9, 49, 50, 55, 46, 48, 46, 48, 46, 49, 7], .ok ()) := by decide +kernel

/-! ## C99 declared lengths

`serialize_seq(Some(n))` writes `n`, whatever number of elements follows; `Val.seq
(some n) vs` is an implementation that declares `n` and presents `vs`. -/

/-- An implementation that declares fewer elements than it presents: the reader gets
that many, and takes the others for what comes after the sequence. -/
theorem C99_more_elements (t : Target) (hm : 4096 ≤ t.memLimit) (ty : Ty) (hs : Supported ty)
    (vs : List Val) (hv : ∀ v ∈ vs, Has t ty v) (n : Nat) (hn : n < 2 ^ t.ptr.bits)
    (hle : n ≤ vs.length) (rest : List UInt8) :
    Prog.run t (de t (.seq ty)) ((Ser.toVec (.seq (some n) vs)).1 ++ rest)
      = .ok (.seq (some n) (vs.take n), (vs.drop n).flatMap (fun v => (Ser.toVec v).1) ++ rest) := by
  have he : (vs.drop n).flatMap (fun v => (Ser.toVec v).1) = (vs.drop n).flatMap wire := by
    rw [List.flatMap_def, List.flatMap_def]
    congr 1
    refine List.map_congr_left fun v h => ?_
    have := has_ok t ty hs v (hv v (List.mem_of_mem_drop h))
    rw [Ser.toVec, Ser.exec_ser v this.1 this.2]
  rw [toVec_declared_seq t ty hs vs hv n (lt_64_of_lt_bits hn), List.append_assoc, Prog.run,
    exec_seq_count t .eof ty n hn, exec_times_take t .eof _ wire vs n hle rest
      fun v h r => de_wire t hm ty hs v (hv v h) .eof r, he]
  simp [Outcome.map, Nat.min_eq_left hle]

/-- One that declares more: the reader takes the missing ones from what comes after
the sequence, as if that were a sequence of the missing number of elements. -/
theorem C99_fewer_elements (t : Target) (hm : 4096 ≤ t.memLimit) (ty : Ty) (hs : Supported ty)
    (vs : List Val) (hv : ∀ v ∈ vs, Has t ty v) (n : Nat) (hn : n < 2 ^ t.ptr.bits)
    (hle : vs.length ≤ n) (rest : List UInt8) :
    Prog.run t (de t (.seq ty)) ((Ser.toVec (.seq (some n) vs)).1 ++ rest)
      = match Prog.run t (de t (.seq ty))
            ((Ser.toVec (.u64 (UInt64.ofNat (n - vs.length)))).1 ++ rest) with
        | .ok (.seq _ ws, rest') => .ok (.seq (some (vs ++ ws).length) (vs ++ ws), rest')
        | other => other := by
  have hk : n - vs.length < 2 ^ t.ptr.bits := by omega
  have hu : (Ser.toVec (.u64 (UInt64.ofNat (n - vs.length)))).1 = varint 64 (n - vs.length) := by
    rw [Ser.toVec, Ser.ser, Ser.exec_serU64, UInt64.toNat_ofNat',
      Nat.mod_eq_of_lt (lt_64_of_lt_bits hk)]
  have hm' := exec_times_more t .eof (de t ty) wire vs (n - vs.length) rest
      fun v h r => de_wire t hm ty hs v (hv v h) .eof r
  rw [Nat.add_sub_cancel' hle] at hm'
  rw [toVec_declared_seq t ty hs vs hv n (lt_64_of_lt_bits hn), List.append_assoc, Prog.run,
    exec_seq_count t .eof ty n hn, hm', hu, Prog.run, exec_seq_count t .eof ty _ hk]
  rcases Prog.exec t .eof (times (n - vs.length) (de t ty)) rest with ⟨ws, r⟩ | e | q <;> rfl

/-- So if nothing comes after it, the sequence cannot be read back (unless the elements
take no bytes). -/
theorem C99_missing_elements (t : Target) (hm : 4096 ≤ t.memLimit) (ty : Ty) (hs : Supported ty)
    (vs : List Val) (hv : ∀ v ∈ vs, Has t ty v) (n : Nat) (hn : n < 2 ^ t.ptr.bits)
    (hlt : vs.length < n) (hne : Prog.run t (de t ty) [] = .err .read) :
    Prog.run t (de t (.seq ty)) (Ser.toVec (.seq (some n) vs)).1 = .err .read := by
  have h := C99_fewer_elements t hm ty hs vs hv n hn (by omega) []
  have hk : n - vs.length < 2 ^ t.ptr.bits := by omega
  have hu : (Ser.toVec (.u64 (UInt64.ofNat (n - vs.length)))).1 = varint 64 (n - vs.length) := by
    rw [Ser.toVec, Ser.ser, Ser.exec_serU64, UInt64.toNat_ofNat',
      Nat.mod_eq_of_lt (lt_64_of_lt_bits hk)]
  have hs : Prog.run t (de t (.seq ty)) (varint 64 (n - vs.length) ++ []) = .err .read := by
    obtain ⟨k, hk'⟩ : ∃ k, n - vs.length = k + 1 := ⟨n - vs.length - 1, by omega⟩
    rw [Prog.run] at hne ⊢
    rw [exec_seq_count t .eof ty _ hk, hk', times, Prog.bind_eq, Prog.exec_bind, hne]
    rfl
  rw [hu, hs, List.append_nil] at h
  exact h

/-- The same for maps. -/
theorem C99_more_entries (t : Target) (hm : 4096 ≤ t.memLimit) (vt : Ty) (hs : Supported vt)
    (es : List (Val × Val)) (hv : ∀ e ∈ es, Has t .string e.1 ∧ Has t vt e.2) (n : Nat)
    (hn : n < 2 ^ t.ptr.bits) (hle : n ≤ es.length) (rest : List UInt8) :
    Prog.run t (de t (.map .string vt)) ((Ser.toVec (.map (some n) es)).1 ++ rest)
      = .ok (.map (some n) (es.take n),
          (es.drop n).flatMap (fun e => (Ser.toVec e.1).1 ++ (Ser.toVec e.2).1) ++ rest) := by
  have he : (es.drop n).flatMap (fun e => (Ser.toVec e.1).1 ++ (Ser.toVec e.2).1)
      = (es.drop n).flatMap fun e => wire e.1 ++ wire e.2 := by
    rw [List.flatMap_def, List.flatMap_def]
    congr 1
    refine List.map_congr_left fun e h => ?_
    have h1 := has_ok t .string trivial e.1 (hv e (List.mem_of_mem_drop h)).1
    have h2 := has_ok t vt hs e.2 (hv e (List.mem_of_mem_drop h)).2
    rw [Ser.toVec, Ser.exec_ser _ h1.1 h1.2, Ser.toVec, Ser.exec_ser _ h2.1 h2.2]
  rw [toVec_declared_map t vt hs es hv n (lt_64_of_lt_bits hn), List.append_assoc, Prog.run,
    exec_map_count t .eof .string vt n hn,
    exec_times_take t .eof _ (fun e => wire e.1 ++ wire e.2) es n hle rest
      fun e h r => exec_entry t hm .eof .string vt trivial hs e (hv e h).1 (hv e h).2 r, he]
  simp [Outcome.map, Nat.min_eq_left hle]

/-- And for missing entries. -/
theorem C99_fewer_entries (t : Target) (hm : 4096 ≤ t.memLimit) (vt : Ty) (hs : Supported vt)
    (es : List (Val × Val)) (hv : ∀ e ∈ es, Has t .string e.1 ∧ Has t vt e.2) (n : Nat)
    (hn : n < 2 ^ t.ptr.bits) (hle : es.length ≤ n) (rest : List UInt8) :
    Prog.run t (de t (.map .string vt)) ((Ser.toVec (.map (some n) es)).1 ++ rest)
      = match Prog.run t (de t (.map .string vt))
            ((Ser.toVec (.u64 (UInt64.ofNat (n - es.length)))).1 ++ rest) with
        | .ok (.map _ fs, rest') => .ok (.map (some (es ++ fs).length) (es ++ fs), rest')
        | other => other := by
  have hk : n - es.length < 2 ^ t.ptr.bits := by omega
  have hu : (Ser.toVec (.u64 (UInt64.ofNat (n - es.length)))).1 = varint 64 (n - es.length) := by
    rw [Ser.toVec, Ser.ser, Ser.exec_serU64, UInt64.toNat_ofNat',
      Nat.mod_eq_of_lt (lt_64_of_lt_bits hk)]
  have hm' := exec_times_more t .eof (do
        let k ← de t .string
        let v ← de t vt
        pure (k, v)) (fun e => wire e.1 ++ wire e.2) es (n - es.length) rest
      fun e h r => exec_entry t hm .eof .string vt trivial hs e (hv e h).1 (hv e h).2 r
  rw [Nat.add_sub_cancel' hle] at hm'
  rw [toVec_declared_map t vt hs es hv n (lt_64_of_lt_bits hn), List.append_assoc, Prog.run,
    exec_map_count t .eof .string vt n hn, hm', hu, Prog.run, exec_map_count t .eof .string vt _ hk]
  rcases Prog.exec t .eof (times (n - es.length) _) rest with ⟨ws, r⟩ | e | q <;> rfl

example (t : Target) (hm : 4096 ≤ t.memLimit) :
    Prog.run t (de t (.seq .u8)) ((Ser.toVec (.seq (some 1) [.u8 5, .u8 6])).1 ++ [7])
      = .ok (.seq (some 1) [.u8 5], [6, 7]) := by
  have h2 : 1 < 2 ^ t.ptr.bits := Nat.one_lt_two_pow (by cases t.ptr <;> decide)
  have := C99_more_elements t hm .u8 trivial [.u8 5, .u8 6] (by simp [Has]) 1 h2 (by decide) [7]
  rw [this]
  rfl

example (t : Target) (ht : t = ⟨.w64, 4096⟩) :
    Prog.run t (de t (.seq .u8)) ((Ser.toVec (.seq (some 3) [.u8 5])).1 ++ [6, 7, 8])
      = .ok (.seq (some 3) [.u8 5, .u8 6, .u8 7], [8]) ∧
    Prog.run t (de t .u8) [] = .err .read := by
  subst ht; exact ⟨rfl, rfl⟩

end Dlhn.Props
