import Verif.Proof.With
import Verif.Props.Convert
/-!
# C143: parts with code of their own

Structs, tuples, enums, options, vectors and maps as serde and serde_derive implement them, over
parts with any `Serialize` and `Deserialize`, in particular fields with `with`, `serialize_with` and
`deserialize_with`. `Carries`, `CarriesAll`, `CarriesBody`, `CarriesEntries` and `InTurn` are in
Spec/With.lean. What is concluded for the whole has the form of what is assumed for the parts, so
the theorems apply at every depth.
-/
namespace Dlhn.Props

open Spec De StdTypes With PrefixVarint

variable {β : Type}

/-- If every part comes back, the whole does: written as what the parts write, one after the
other, behind the flag of an option, the length of a vector or map, or the number of the variant,
and read as the parts are read. -/
theorem C143_roundtrip (t : Target) :
    (∀ (p : SerImpl) (i : Impl β) (a : β) (enc : List UInt8), Carries t p i a enc →
      Carries t (.some p) (optionDe i) (some a) (1 :: enc) ∧
      ∀ name, Carries t (.newtypeStruct name p) (.newtypeStruct name i) a enc) ∧
    (∀ i : Impl β, Carries t .none (optionDe i) none [0]) ∧
    (∀ (ps : List SerImpl) (i : Impl β) (as : List β) (enc : List UInt8),
      as.length < 2 ^ t.ptr.bits → CarriesAll t ps (as.map fun _ => i) as enc →
      Carries t (.seq (some ps.length) (partsSer ps)) (vecDe i) as
        (lengthWire as.length ++ enc)) ∧
    (∀ (ps : List SerImpl) (is : List (Impl β)) (as : List β) (enc : List UInt8),
      CarriesAll t ps is as enc →
      Carries t (.tuple ps.length (partsSer ps)) (tupleDe is) as enc ∧
      (∀ name, Carries t (.tupleStruct name ps.length (partsSer ps)) (tupleStructDe name is) as
        enc) ∧
      ∀ (name : String) (names : List String), names.Nodup → names.length = as.length →
        Carries t (.struct name ps.length (fieldsSer (names.zip ps)))
          (structDe name (names.zip is)) (names.zip as) enc) ∧
    (∀ (κ : Type) (key : Impl κ) (i : Impl β) (es : List (SerImpl × SerImpl)) (as : List (κ × β))
      (enc : List UInt8), as.length < 2 ^ t.ptr.bits → CarriesEntries t key i es as enc →
      Carries t (.map (some es.length) (entriesSer es)) (entriesDe key i) as
        (lengthWire as.length ++ enc)) ∧
    (∀ (name variant : String) (vs : List (String × OwnBody β)) (n : Nat) (ps : OwnParts)
      (b : OwnBody β) (as : List β) (enc : List UInt8), n < 16384 →
      vs[n]? = some (variant, b) → CarriesBody t ps b as enc →
      Carries t (ownVariantSer name (UInt32.ofNat n) variant ps) (enumDe name vs)
        (UInt16.ofNat n, as) (varint 32 n ++ enc)) := by
  refine ⟨fun p i a enc h => ⟨⟨?_, fun rest => ?_⟩, fun name => ⟨?_, fun rest => ?_⟩⟩,
    fun i => ⟨?_, fun rest => ?_⟩, fun ps i as enc hl h => ⟨?_, fun rest => ?_⟩,
    fun ps is as enc h => ⟨⟨?_, fun rest => ?_⟩, fun name => ⟨?_, fun rest => ?_⟩,
      fun name names hn hl => ⟨?_, fun rest => ?_⟩⟩,
    fun κ key i es as enc hl h => ⟨?_, fun rest => ?_⟩,
    fun name variant vs n ps b as enc hn hv h => ⟨?_, fun rest => ?_⟩⟩
  · have h1 := writes_iff.mp h.1
    rw [writes_iff]; simp [written, h1]
  · have hb : Prog.run t deBool ([1] ++ (enc ++ rest)) = .ok (true, enc ++ rest) := rfl
    rw [optionDe, Impl.run, List.cons_append, ← List.singleton_append, reads_bind hb, if_pos rfl,
      Impl.run, reads_bind (h.2 rest)]
    rfl
  · have h1 := writes_iff.mp h.1
    rw [writes_iff]; simp [written, h1]
  · rw [Impl.run]; exact h.2 rest
  · rw [writes_iff]; rfl
  · rfl
  · have hp := (CarriesAll.lengths h).1
    rw [writes_iff, written, writes_all h, hp]
  · have hr := reads_all h rest
    have hrun : ∀ n, runAll t (List.replicate n i) = times n (i.run t) := by
      intro n
      induction n with
      | zero => rfl
      | succ n ih => rw [List.replicate_succ, runAll, ih, times]; rfl
    rw [List.map_const', hrun] at hr
    have h64 : as.length < 2 ^ 64 := lt_64_of_lt_bits hl
    have hn : Prog.run t (io decodeU64) (varint 64 as.length ++ (enc ++ rest))
        = .ok (UInt64.ofNat as.length, enc ++ rest) := by
      rw [Prog.run, exec_u64_varint t .eof _ h64]
    rw [vecDe, Impl.run, lengthWire, Nat.mod_eq_of_lt h64, List.append_assoc, reads_bind hn,
      asUsize_ofNat hl, run_collectSeq, reads_bind hr]
    rfl
  · rw [writes_iff, written, writes_all h]
  · rw [tupleDe, Impl.run, run_tuple]; exact reads_all h rest
  · rw [writes_iff, written, writes_all h]
  · rw [tupleStructDe, Impl.run, run_tuple]; exact reads_all h rest
  · rw [writes_iff, written, writes_fields h names hl]
  · rw [structDe, Impl.run]; exact reads_struct h hn hl rest
  · rw [writes_iff, written, (writes_entries h).1, (writes_entries h).2]
  · have h64 : as.length < 2 ^ 64 := lt_64_of_lt_bits hl
    have hn : Prog.run t (io decodeU64) (varint 64 as.length ++ (enc ++ rest))
        = .ok (UInt64.ofNat as.length, enc ++ rest) := by
      rw [Prog.run, exec_u64_varint t .eof _ h64]
    rw [entriesDe, Impl.run, lengthWire, Nat.mod_eq_of_lt h64, List.append_assoc, reads_bind hn,
      asUsize_ofNat hl, run_collectMap, reads_bind (reads_entries h rest)]
    rfl
  · have := writes_body h name (UInt32.ofNat n) variant
    rwa [UInt32.toNat_ofNat_of_lt' (Nat.lt_trans hn (by decide))] at this
  · have hr : Prog.run t deU16 (varint 16 n ++ (enc ++ rest)) = .ok (UInt16.ofNat n, enc ++ rest) := by
      rw [deU16, Prog.run, exec_u16_varint t .eof _ (by omega)]
    have hu : (UInt16.ofNat n).toNat = n := UInt16.toNat_ofNat_of_lt' (Nat.lt_trans hn (by decide))
    have hl : n < vs.length := (List.getElem?_eq_some_iff.mp hv).1
    have hi : Prog.run t ((Impl.andThen .identifier fun i : UInt16 =>
        if i.toNat < vs.length then Impl.ok i else .error (unknownVariant i.toNat vs.length)).run t)
        (varint 16 n ++ (enc ++ rest)) = .ok (UInt16.ofNat n, enc ++ rest) := by
      rw [Impl.run, Impl.run, reads_bind hr, hu, if_pos hl]
      rfl
    rw [enumDe, Impl.run, varint_32_16 n hn, List.append_assoc, reads_bind hi, hu, hv]
    exact reads_body h _ rest

/-- Reading, on every reader and whatever the data: the code of each part is called once, in the
order of declaration, where the one before stopped; the first that does not return `Ok` ends it
with what it returned, and no later one is called. -/
theorem C143_reading {σ : Type} (step : RStep σ) (t : Target) (is : List (Impl β)) (s s' : σ)
    (cs : List ReadRes) :
    (∀ o, Runs step t ((tupleDe is).run t) s cs o s' ↔ InTurn step t is s cs o s') ∧
    (∀ name o, Runs step t ((tupleStructDe name is).run t) s cs o s' ↔
      InTurn step t is s cs o s') ∧
    ∀ (name : String) (names : List String), names.Nodup → names.length = is.length →
      ∀ o, Runs step t ((structDe name (names.zip is)).run t) s cs o s' ↔
        ∃ o', InTurn step t is s cs o' s' ∧ o = o'.map (names.zip ·) := by
  refine ⟨fun o => ?_, fun name o => ?_, fun name names hn hl o => ?_⟩
  · rw [tupleDe, Impl.run, run_tuple, runs_all]
  · rw [tupleStructDe, Impl.run, run_tuple, runs_all]
  · rw [structDe, Impl.run, run_struct t names is hn hl.symm, Runs.bind_iff]
    constructor
    · rintro (⟨as, cs1, s1, cs2, rfl, h1, h2⟩ | ⟨e, rfl, h⟩ | ⟨q, rfl, h⟩)
      · cases h2
        rw [List.append_nil]
        exact ⟨_, (runs_all ..).mp h1, rfl⟩
      · exact ⟨_, (runs_all ..).mp h, rfl⟩
      · exact ⟨_, (runs_all ..).mp h, rfl⟩
    · rintro ⟨o', h, rfl⟩
      have h := (runs_all ..).mpr h
      cases o' with
      | ok as => exact .inl ⟨as, cs, s', [], by simp, h, .done _ _⟩
      | err e => exact .inr (.inl ⟨e, rfl, h⟩)
      | panic q => exact .inr (.inr ⟨q, rfl, h⟩)

/-- Writing: the first part that fails ends it with its error, after the bytes of the parts before
it and those it has written itself. -/
theorem C143_writing (fs post : List (String × SerImpl)) (n : String) (p : SerImpl)
    (enc : SerImpl → List UInt8) (part : List UInt8) (e : SerErr) (name : String) (len : Nat)
    (h : ∀ f ∈ fs, Writes f.2 (enc f.2)) (hp : Fails p part e) :
    Fails (.struct name len (fieldsSer (fs ++ (n, p) :: post)))
      ((fs.map (·.2)).flatMap enc ++ part) e ∧
    Fails (.tuple len (partsSer (fs.map (·.2) ++ p :: post.map (·.2))))
      ((fs.map (·.2)).flatMap enc ++ part) e ∧
    Fails (.tupleStruct name len (partsSer (fs.map (·.2) ++ p :: post.map (·.2))))
      ((fs.map (·.2)).flatMap enc ++ part) e := by
  have h' : ∀ q ∈ fs.map (·.2), Writes q (enc q) := fun q hq => by
    obtain ⟨f, hf, rfl⟩ := List.mem_map.mp hq
    exact h f hf
  refine ⟨?_, ?_, ?_⟩ <;> rw [Fails, fails_iff, written]
  · exact fails_fields h hp
  · exact fails_all h' hp
  · exact fails_all h' hp

/-- The same behind the flag of an option, the length of a vector or map and the number of a
variant. A key that is not a string writes nothing; its error ends the map, and the error of a value
does so after the text of its key. -/
theorem C143_writing_containers (p : SerImpl) (part : List UInt8) (e : SerErr)
    (hp : Fails p part e) (name variant : String) (i : UInt32) (len : Nat) :
    Fails (.some p) (1 :: part) e ∧ Fails (.newtypeStruct name p) part e ∧
    Fails (ownVariantSer name i variant (.newtype p)) (varint 32 i.toNat ++ part) e ∧
    (∀ (fs post : List (String × SerImpl)) (n : String) (enc : SerImpl → List UInt8),
      (∀ f ∈ fs, Writes f.2 (enc f.2)) →
      Fails (.seq (some len) (partsSer (fs.map (·.2) ++ p :: post.map (·.2))))
        (lengthWire len ++ ((fs.map (·.2)).flatMap enc ++ part)) e ∧
      Fails (ownVariantSer name i variant (.tuple (fs.map (·.2) ++ p :: post.map (·.2))))
        (varint 32 i.toNat ++ ((fs.map (·.2)).flatMap enc ++ part)) e ∧
      Fails (ownVariantSer name i variant (.struct (fs ++ (n, p) :: post)))
        (varint 32 i.toNat ++ ((fs.map (·.2)).flatMap enc ++ part)) e) ∧
    ∀ (es post : List (SerImpl × SerImpl)) (enc : SerImpl × SerImpl → List UInt8),
      (∀ x ∈ es, ∃ text v, keyText x.1 = some text ∧ Writes x.2 v ∧
        enc x = counted (utf8 text) ++ v) →
      (∀ k text, keyText k = some text → Fails (.map (some len) (entriesSer (es ++ (k, p) :: post)))
        (lengthWire len ++ (es.flatMap enc ++ (counted (utf8 text) ++ part))) e) ∧
      ∀ k v, keyText k = none → Fails (.map (some len) (entriesSer (es ++ (k, v) :: post)))
        (lengthWire len ++ es.flatMap enc) (keyError k) := by
  have h1 := fails_iff.mp hp
  refine ⟨?_, ?_, ?_, fun fs post n enc h => ?_, fun es post enc h => ⟨fun k text hk => ?_,
    fun k v hk => ?_⟩⟩
  · rw [Fails, fails_iff, written, h1]
  · rw [Fails, fails_iff, written, h1]
  · rw [Fails, fails_iff, ownVariantSer, written, h1]
  · have h' : ∀ q ∈ fs.map (·.2), Writes q (enc q) := fun q hq => by
      obtain ⟨f, hf, rfl⟩ := List.mem_map.mp hq
      exact h f hf
    refine ⟨?_, ?_, ?_⟩
    · rw [Fails, fails_iff, written, fails_all h' hp]
    · rw [Fails, fails_iff, ownVariantSer, written, fails_all h' hp]
    · rw [Fails, fails_iff, ownVariantSer, written, fails_fields h hp]
  · rw [Fails, fails_iff, written, fails_entries h]
    simp [entriesSer, writtenMap, hk, following, h1]
  · rw [Fails, fails_iff, written, fails_entries h]
    simp [entriesSer, writtenMap, hk]

/-- `[("a", 7), (8, 9)]` as a map: the number as a key ends it. -/
example : Fails (.map (some 2) (entriesSer [(.str "a", .u8 7), (.u8 8, .u8 9)])) [2, 1, 97, 7]
    .unsupportedKeyType := by
  have h := ((C143_writing_containers (.error .write) [] .write rfl "" "" 0 2).2.2.2.2
    [(.str "a", .u8 7)] [] (fun _ => [1, 97, 7])
    (by
      intro x hx
      obtain rfl := List.mem_singleton.mp hx
      exact ⟨"a", [7], rfl, by rw [writes_iff]; rfl, by decide +kernel⟩)).2 (.u8 8) (.u8 9) rfl
  have hl : lengthWire 2 = [2] := by decide +kernel
  rw [hl] at h
  exact h

/-- `mod decimal { fn serialize(n: &u64, s) { s.collect_str(n) } fn deserialize(d) {
String::deserialize(d)?.parse().map_err(Error::custom) } }` -/
def decimalSer (n : UInt64) : SerImpl := .collectStr (toString n.toNat)

/-- `str::parse`, of digits. -/
def parseDigits (s : String) : Option Nat :=
  if s.toList ≠ [] ∧ s.toList.all Char.isDigit then
    some (s.toList.foldl (fun n c => n * 10 + (c.toNat - 48)) 0)
  else none

def decimalDe : Impl UInt64 := .andThen .string fun s => match parseDigits s with
  | some n => if n < 2 ^ 64 then .ok (UInt64.ofNat n) else .error (.message "number too large")
  | none => .error (.message "invalid digit")

/-- `struct Job { #[serde(with = "decimal")] number: u64, level: u64 }` -/
def jobSer (number level : UInt64) : SerImpl :=
  .struct "Job" 2 (fieldsSer [("number", decimalSer number), ("level", .u64 level)])

def jobDe : Impl (List (String × UInt64)) := structDe "Job" [("number", decimalDe), ("level", .u64)]

theorem carries_decimal (t : Target) : Carries t (decimalSer 42) decimalDe 42 [2, 52, 50] := by
  refine ⟨by rw [writes_iff]; decide +kernel, fun rest => ?_⟩
  have hs : Prog.run t (deString t) ([2, 52, 50] ++ rest) = .ok ("42", rest) := by
    have h := deString_block t .eof "42" (by cases t.ptr <;> decide +kernel) rest
    have hu : utf8 "42" = [52, 50] := by decide +kernel
    rw [hu, block, varint_byte 64 _ (by decide) (by decide)] at h
    exact h
  have hn : parseDigits "42" = some 42 := by decide +kernel
  rw [decimalDe, Impl.run, Impl.run, reads_bind hs, hn]
  rfl

theorem carries_job (t : Target) : Carries t (jobSer 42 3) jobDe [("number", 42), ("level", 3)]
    [2, 52, 50, 3] := by
  have h3 : varint 64 (3 : UInt64).toNat = [3] := varint_byte 64 _ (by decide) (by decide)
  have h2 : Carries t (.u64 3) .u64 3 [3] := by
    rw [← h3]; exact ⟨writes_u64 3, reads_u64 t 3⟩
  exact ((C143_roundtrip t).2.2.2.1 _ _ _ _ (.cons (carries_decimal t) (.cons h2 .nil))).2.2 "Job"
    ["number", "level"] (by decide) rfl

example (t : Target) : ThereAndBack t (jobSer 42 3) jobDe [("number", 42), ("level", 3)] :=
  ⟨_, carries_job t⟩

/-- `enum E { Idle, Job { #[serde(with = "decimal")] a: u64, #[serde(with = "decimal")] b: u64 } }` -/
example (t : Target) : Carries t
    (ownVariantSer "E" 1 "Job" (.struct [("a", decimalSer 42), ("b", decimalSer 42)]))
    (enumDe "E" [("Idle", .unit), ("Job", .struct [("a", decimalDe), ("b", decimalDe)])])
    (1, [42, 42]) [1, 2, 52, 50, 2, 52, 50] := by
  have hb : CarriesBody t (.struct (["a", "b"].zip [decimalSer 42, decimalSer 42]))
      (.struct (["a", "b"].zip [decimalDe, decimalDe])) [42, 42]
      ([2, 52, 50] ++ ([2, 52, 50] ++ [])) :=
    .struct (by decide) rfl (.cons (carries_decimal t) (.cons (carries_decimal t) .nil))
  have h := (C143_roundtrip t).2.2.2.2.2 "E" "Job" [("Idle", .unit),
    ("Job", .struct [("a", decimalDe), ("b", decimalDe)])] 1 _ _ _ _ (by decide) rfl hb
  rwa [varint_byte 32 1 (by decide) (by decide)] at h

/-- `HashMap<Number, Option<Number>>`, where `Number` is written and read as `decimal` does: keys
that are displayed and parsed work. -/
example (t : Target) : ThereAndBack t
    (.map (some 1) (entriesSer [(decimalSer 42, .some (decimalSer 42))]))
    (entriesDe decimalDe (optionDe decimalDe)) [(42, some 42)] := by
  have hk : Reads t decimalDe (counted (utf8 "42")) 42 := by
    have hu : utf8 "42" = [52, 50] := by decide +kernel
    have hc : lengthWire 2 = [2] := by
      rw [lengthWire, Nat.mod_eq_of_lt (by decide), varint_byte 64 _ (by decide) (by decide)]
      rfl
    rw [hu, counted, List.length_cons, List.length_singleton, hc]
    exact (carries_decimal t).2
  have hl : [((42 : UInt64), some (42 : UInt64))].length < 2 ^ t.ptr.bits := by
    cases t.ptr <;> decide
  have ht : keyText (decimalSer 42) = some "42" := by decide +kernel
  have he : CarriesEntries t decimalDe (optionDe decimalDe)
      [(decimalSer 42, .some (decimalSer 42))] [(42, some 42)]
      (counted (utf8 "42") ++ (1 :: [2, 52, 50]) ++ []) :=
    .cons ht hk ((C143_roundtrip t).1 _ _ _ _ (carries_decimal t)).1 .nil
  have h := (C143_roundtrip t).2.2.2.2.1 _ _ _ _ _ _ hl he
  exact ⟨_, h⟩

/-- A text that is no number is refused with the message of the function, and `level` is not
read. -/
example {σ : Type} (step : RStep σ) (t : Target) (s s' : σ) (cs : List ReadRes)
    (h : Runs step t (decimalDe.run t) s cs (.err (.message "invalid digit")) s') :
    Runs step t (jobDe.run t) s cs (.err (.message "invalid digit")) s' :=
  ((C143_reading step t [decimalDe, .u64] s s' cs).2.2 "Job" ["number", "level"] (by decide) rfl
    _).mpr ⟨_, .err h, rfl⟩

example (t : Target) (rest : List UInt8) :
    Prog.run t (decimalDe.run t) ([1, 120] ++ rest) = .err (.message "invalid digit") := by
  have h := deString_block t .eof "x" (by cases t.ptr <;> decide +kernel) rest
  have hu : utf8 "x" = [120] := by decide +kernel
  rw [hu, block, varint_byte 64 _ (by decide) (by decide)] at h
  have hn : parseDigits "x" = none := by decide +kernel
  rw [decimalDe, Impl.run, Impl.run]
  refine (reads_bind h).trans ?_
  rw [hn]
  rfl

/-- A function that gives up after it has written something. -/
example : Fails (.struct "S" 2 (fieldsSer [("a", .u8 7), ("b", .some (.error (.message "no"))),
    ("c", .u8 9)])) [7, 1] (.message "no") :=
  (C143_writing [("a", .u8 7)] [("c", .u8 9)] "b" (.some (.error (.message "no"))) (fun _ => [7])
    [1] _ "S" 2 (by simp [writes_iff, written]) (by rw [Fails, fails_iff]; rfl)).1

/-! ## The header -/

/-- Part by part: under the header the bytes are read as the body. -/
inductive Shows (t : Target) (mode : BuildMode) (size : Nat) :
    List Header → List UInt8 → List Body → Prop where
  | nil : Shows t mode size [] [] []
  | cons {h : Header} {hs : List Header} {enc encs : List UInt8} {b : Body} {bs : List Body} :
      (∀ rest, Prog.run t (Body.de t mode size h) (enc ++ rest) = .ok (b, rest)) →
      Shows t mode size hs encs bs → Shows t mode size (h :: hs) (enc ++ encs) (b :: bs)

/-- `#[derive(SerializeHeader)]` does not look at these attributes, nor at any other but the three
that leave fields out: the header lists the types as declared. So the data can be read under the
header if what each function writes is data of the declared type, and then gives what these
give. -/
theorem C143_header (name : String) (fields : List RField) (hs : List Header)
    (hf : ∀ f ∈ fields, ¬ Skipped (fieldAttrs f) ∧ ¬ Conditional (fieldAttrs f))
    (hd : DescribesAll (fields.map fieldType) hs) (hc : Countable (.tuple hs)) :
    Announces (.struct name (.named fields)) (.tuple hs) ∧
    ∀ (t : Target) (mode : BuildMode) (size : Nat), t.allocate (hs.length * size) = none →
      ∀ (enc : List UInt8) (bs : List Body), Shows t mode size hs enc bs → ∀ rest,
        Prog.run t (Body.de t mode size (.tuple hs)) (enc ++ rest) = .ok (.tuple bs, rest) := by
  constructor
  · refine (announces_iff _ _).mpr ⟨.struct _ _ _ (fun f hm => (hf f hm).2) ?_, hc⟩
    have : serializedTypes (declared (.named fields)) = fields.map fieldType := by
      rw [serializedTypes, declared, List.filter_eq_self.mpr]
      intro f hm
      simpa using (hf f hm).1
    rw [this]; exact hd
  · intro t mode size ha enc bs h rest
    have hall : Prog.run t (Body.deAll t mode size hs) (enc ++ rest) = .ok (bs, rest) := by
      clear ha hd hc
      induction h generalizing rest with
      | nil => rfl
      | cons h1 _ ih =>
        rw [Body.deAll, List.append_assoc]
        simp only [Prog.bind_eq]
        rw [reads_bind (h1 _), reads_bind (ih _)]
        rfl
    rw [Body.de, Prog.run, Prog.exec, ha]
    dsimp only
    simp only [Prog.bind_eq]
    exact (reads_bind (k := fun buf => pure (Body.tuple buf)) hall).trans rfl

/-- The header of `Job`, whose number is written as text, has two `u64`: the length of the text and
its first digit are read as the numbers. -/
example (t : Target) (mode : BuildMode) (hm : 16 ≤ t.memLimit) :
    Announces (.struct "Job" (.named [.mk [⟨some "serde", some [some "with"]⟩] "number" .u64,
      .mk [] "level" .u64])) (.tuple [.uint64, .uint64]) ∧
    Prog.run t (Body.de t mode 8 (.tuple [.uint64, .uint64])) [2, 52, 50, 3]
      = .ok (.tuple [.uint64 2, .uint64 52], [50, 3]) := by
  have hp : 2 * 8 ≤ t.isizeMax := by cases hw : t.ptr <;> simp [Target.isizeMax, hw, PtrWidth.bits]
  have ha : t.allocate (2 * 8) = none := by
    rw [Target.allocate, if_neg (by omega), if_neg (by omega)]
  obtain ⟨h1, h2⟩ := C143_header "Job" [.mk [⟨some "serde", some [some "with"]⟩] "number" .u64,
    .mk [] "level" .u64] [.uint64, .uint64] (by decide) (.cons _ _ _ _ .u64 (.cons _ _ _ _ .u64 .nil))
    (by simp [Countable, AllCountable])
  refine ⟨h1, h2 t mode 8 ha ([2] ++ ([52] ++ [])) _ (.cons (b := .uint64 2) ?_
    (.cons (b := .uint64 52) ?_ .nil)) [50, 3]⟩ <;> intro rest
  · have h := reads_u64 t 2 rest
    rw [varint_byte 64 _ (by decide) (by decide), Impl.run] at h
    rw [Body.de]
    exact reads_bind h
  · have h := reads_u64 t 52 rest
    rw [varint_byte 64 _ (by decide) (by decide), Impl.run] at h
    rw [Body.de]
    exact reads_bind h

end Dlhn.Props
