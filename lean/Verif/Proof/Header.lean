import Verif.Model.Header
import Verif.Spec.Header
import Verif.Proof.ProgGen
import Verif.Proof.VarintSpec
import Verif.Proof.Varint
import Verif.Proof.Writer
import Verif.Proof.DeGen
/-! # Headers: encoder and decoder against the grammar -/
namespace Dlhn

namespace Prog
variable {ε α β : Type}

/-- An error other than running out of data does not depend on what follows. -/
theorem exec_err_append {e : IoErr → ε} (t : Target) (fin : Ending) {p : Prog ε α}
    (hp : Strict e p) {bs : List UInt8} {x : ε} (h : exec t .eof p bs = .err x)
    (hx : x ≠ e .unexpectedEof) (more : List UInt8) : exec t fin p (bs ++ more) = .err x := by
  induction p generalizing bs with
  | done o => cases o <;> simp_all [exec]
  | readExact n onErr k ih =>
    simp only [exec] at h ⊢
    split at h
    · rename_i hn
      rw [dif_pos (by rw [List.length_append]; omega), takeVec_append bs more hn,
        List.drop_append_of_le_length hn]
      exact ih _ (hp.2 _) h
    · simp only [Outcome.err.injEq, hp.1, Ending.shortErr] at h
      exact absurd h.symm hx
  | takeToEnd n onErr k ih =>
    simp only [exec] at h ⊢
    split at h
    · rename_i hn
      rw [if_pos (by rw [List.length_append]; omega), List.take_append_of_le_length hn,
        List.drop_append_of_le_length hn]
      exact ih _ (hp.2.2 _) h
    · simp only [hp.2.1 bs (by omega), exec, Outcome.err.injEq] at h
      exact absurd h.symm hx
  | alloc n k ih =>
    simp only [exec] at h ⊢
    split
    · rename_i q hq
      simp [hq] at h
    · rename_i hq
      simp only [hq] at h
      exact ih hp h

/-- `q` does what `p` does, except possibly where `p` runs out of stack. -/
def Deeper : Prog ε α → Prog ε α → Prop
  | done o, q => o = .panic .stackOverflow ∨ q = done o
  | readExact n f k, q => ∃ k', q = readExact n f k' ∧ ∀ bs, Deeper (k bs) (k' bs)
  | takeToEnd n f k, q => ∃ k', q = takeToEnd n f k' ∧ ∀ bs, Deeper (k bs) (k' bs)
  | alloc n k, q => ∃ k', q = alloc n k' ∧ Deeper k k'

theorem Deeper.refl (p : Prog ε α) : Deeper p p := by
  induction p with
  | done o => exact .inr rfl
  | readExact n f k ih => exact ⟨k, rfl, ih⟩
  | takeToEnd n f k ih => exact ⟨k, rfl, ih⟩
  | alloc n k ih => exact ⟨k, rfl, ih⟩

theorem Deeper.bind {p p' : Prog ε α} {f f' : α → Prog ε β} (hp : Deeper p p')
    (hf : ∀ a, Deeper (f a) (f' a)) : Deeper (Prog.bind p f) (Prog.bind p' f') := by
  induction p generalizing p' with
  | done o =>
    rcases hp with h | h
    · subst h; exact .inl rfl
    · subst h
      cases o with
      | ok a => exact hf a
      | err e => exact .inr rfl
      | panic q => exact .inr rfl
  | readExact n g k ih =>
    obtain ⟨k', rfl, hk⟩ := hp
    exact ⟨_, rfl, fun bs => ih bs (hk bs)⟩
  | takeToEnd n g k ih =>
    obtain ⟨k', rfl, hk⟩ := hp
    exact ⟨_, rfl, fun bs => ih bs (hk bs)⟩
  | alloc n k ih =>
    obtain ⟨k', rfl, hk⟩ := hp
    exact ⟨_, rfl, ih hk⟩

theorem Deeper.exec {t : Target} {fin : Ending} {p q : Prog ε α} (h : Deeper p q)
    (bs : List UInt8) (hne : exec t fin p bs ≠ .panic .stackOverflow) :
    Prog.exec t fin q bs = Prog.exec t fin p bs := by
  induction p generalizing q bs with
  | done o =>
    rcases h with h | h
    · subst h; exact absurd rfl hne
    · rw [h]
  | readExact n g k ih =>
    obtain ⟨k', rfl, hk⟩ := h
    simp only [Prog.exec] at hne ⊢
    split
    · rename_i hn
      rw [dif_pos hn] at hne
      exact ih _ (hk _) _ hne
    · rfl
  | takeToEnd n g k ih =>
    obtain ⟨k', rfl, hk⟩ := h
    simp only [Prog.exec] at hne ⊢
    split
    · rename_i hn
      rw [if_pos hn] at hne
      exact ih _ (hk _) _ hne
    · rename_i hn
      rw [if_neg hn] at hne
      cases fin with
      | eof => exact ih _ (hk _) _ hne
      | fail e => rfl
  | alloc n k ih =>
    obtain ⟨k', rfl, hk⟩ := h
    simp only [Prog.exec] at hne ⊢
    split
    · rfl
    · rename_i hq
      simp only [hq] at hne
      exact ih hk _ hne

/-- Allocation requests of a sequence. -/
theorem requests_bind (t : Target) (fin : Ending) (p : Prog ε α) (f : α → Prog ε β)
    (bs : List UInt8) : requests t fin (Prog.bind p f) bs = requests t fin p bs ++
      match Prog.exec t fin p bs with
      | .ok (a, r) => requests t fin (f a) r
      | _ => [] := by
  induction p generalizing bs with
  | done o => cases o <;> simp [Prog.bind, requests, Prog.exec]
  | readExact n g k ih =>
    simp only [Prog.bind, requests, Prog.exec]
    split
    · exact ih _ _
    · rfl
  | takeToEnd n g k ih =>
    simp only [Prog.bind, requests, Prog.exec]
    split
    · exact ih _ _
    · cases fin with
      | eof => exact ih _ _
      | fail e => rfl
  | alloc n k ih =>
    simp only [Prog.bind, requests, Prog.exec]
    split
    · rfl
    · rw [ih]; rfl

/-- Bytes left over by a run, none if it does not succeed. -/
def left : Outcome ε (α × List UInt8) → Nat
  | .ok (_, r) => r.length
  | _ => 0

/-- Every allocation request is paid for by two bytes of input. -/
def Paid (t : Target) (fin : Ending) (p : Prog ε α) : Prop :=
  ∀ bs, 2 * (requests t fin p bs).length + left (Prog.exec t fin p bs) ≤ bs.length

theorem Paid.bind {t : Target} {fin : Ending} {p : Prog ε α} {f : α → Prog ε β}
    (hp : Paid t fin p) (hf : ∀ a, Paid t fin (f a)) : Paid t fin (Prog.bind p f) := by
  intro bs
  have h := hp bs
  rw [requests_bind, exec_bind]
  rcases ho : Prog.exec t fin p bs with ⟨a, r⟩ | e | q
  · rw [ho] at h
    simp only [left, next_ok, List.length_append] at h ⊢
    have := hf a r
    simp only [left] at this
    omega
  · rw [ho] at h; simpa [left] using h
  · rw [ho] at h; simpa [left] using h

theorem Paid.done {t : Target} {fin : Ending} (o : Outcome ε α) :
    Paid t fin (Prog.done o : Prog ε α) := by
  intro bs; cases o <;> simp [requests, left, Prog.exec]

/-- The program makes no allocation request. -/
def NoAlloc : Prog ε α → Prop
  | done _ => True
  | readExact _ _ k => ∀ bs, NoAlloc (k bs)
  | takeToEnd _ _ k => ∀ bs, NoAlloc (k bs)
  | alloc _ _ => False

theorem NoAlloc.bind {p : Prog ε α} {f : α → Prog ε β} (hp : NoAlloc p)
    (hf : ∀ a, NoAlloc (f a)) : NoAlloc (Prog.bind p f) := by
  induction p with
  | done o =>
    cases o with
    | ok a => exact hf a
    | err e => trivial
    | panic q => trivial
  | readExact n g k ih => exact fun bs => ih bs (hp bs)
  | takeToEnd n g k ih => exact fun bs => ih bs (hp bs)
  | alloc n k ih => exact hp.elim

theorem NoAlloc.requests {p : Prog ε α} (hp : NoAlloc p) (t : Target) (fin : Ending)
    (bs : List UInt8) : Prog.requests t fin p bs = [] := by
  induction p generalizing bs with
  | done o => rfl
  | readExact n g k ih =>
    simp only [Prog.requests]
    split
    · exact ih _ (hp _) _
    · rfl
  | takeToEnd n g k ih =>
    simp only [Prog.requests]
    split
    · exact ih _ (hp _) _
    · cases fin
      · exact ih _ (hp _) _
      · rfl
  | alloc n k ih => exact hp.elim

end Prog

namespace Header

open PrefixVarint Spec

/-! ## The encoder writes the canonical bytes -/

theorem putCount_exec (n : Nat) (h : n < 65536) :
    (putCount n).exec = (varint 16 n, .ok ()) := by
  have := vecU16_eq (UInt16.ofNat n)
  rw [vecU16, UInt16.toNat_ofNat', Nat.mod_eq_of_lt h] at this
  simp only [putCount, put, WProg.exec, this, List.append_nil, WProg.exec_skip]

theorem putCount_exec_mod (n : Nat) :
    (putCount n).exec = (varint 16 (n % 65536), .ok ()) := by
  have := vecU16_eq (UInt16.ofNat n)
  rw [vecU16, UInt16.toNat_ofNat'] at this
  simp only [putCount, put, WProg.exec, this, List.append_nil, WProg.exec_skip]

theorem put_exec (bs : List UInt8) : (put bs).exec = (bs, .ok ()) := by
  simp [put, WProg.exec]

mutual
theorem serialize_exec : (h : Header) → Countable h →
    h.serialize.exec = (headerWire h, .ok ())
  | .unit, _ | .boolean, _ | .uint8, _ | .uint16, _ | .uint32, _ | .uint64, _ | .int8, _
  | .int16, _ | .int32, _ | .int64, _ | .float32, _ | .float64, _ | .bigUInt, _ | .bigInt, _
  | .bigDecimal, _ | .string, _ | .binary, _ | .date, _ | .dateTime, _ => by
    rw [serialize, put_exec]; rfl
  | .optional h, hc => by
    rw [serialize, WProg.exec_andThen_ok (put_exec _), serialize_exec h hc]; rfl
  | .array h, hc => by
    rw [serialize, WProg.exec_andThen_ok (put_exec _), serialize_exec h hc]; rfl
  | .map h, hc => by
    rw [serialize, WProg.exec_andThen_ok (put_exec _), serialize_exec h hc]; rfl
  | .tuple hs, hc => by
    rw [serialize, WProg.exec_andThen_ok (put_exec _),
      WProg.exec_andThen_ok (putCount_exec _ hc.1), serializeAll_exec hs hc.2]; rfl
  | .enum hs, hc => by
    rw [serialize, WProg.exec_andThen_ok (put_exec _),
      WProg.exec_andThen_ok (putCount_exec _ hc.1), serializeAll_exec hs hc.2]; rfl
theorem serializeAll_exec : (hs : List Header) → AllCountable hs →
    (serializeAll hs).exec = (headersWire hs, .ok ())
  | [], _ => rfl
  | h :: hs, hc => by
    rw [serializeAll, WProg.exec_andThen_ok (serialize_exec h hc.1), serializeAll_exec hs hc.2]
    rfl
end

mutual
theorem maps_serialize : (h : Header) → h.serialize.Maps id
  | .unit | .boolean | .uint8 | .uint16 | .uint32 | .uint64 | .int8
  | .int16 | .int32 | .int64 | .float32 | .float64 | .bigUInt | .bigInt
  | .bigDecimal | .string | .binary | .date | .dateTime => ⟨fun _ => rfl, trivial⟩
  | .optional h => by
    rw [serialize]; exact WProg.Maps.andThen ⟨fun _ => rfl, trivial⟩ (maps_serialize h)
  | .array h => by
    rw [serialize]; exact WProg.Maps.andThen ⟨fun _ => rfl, trivial⟩ (maps_serialize h)
  | .map h => by
    rw [serialize]; exact WProg.Maps.andThen ⟨fun _ => rfl, trivial⟩ (maps_serialize h)
  | .tuple hs => by
    rw [serialize]
    exact WProg.Maps.andThen ⟨fun _ => rfl, trivial⟩
      (WProg.Maps.andThen ⟨fun _ => rfl, trivial⟩ (maps_serializeAll hs))
  | .enum hs => by
    rw [serialize]
    exact WProg.Maps.andThen ⟨fun _ => rfl, trivial⟩
      (WProg.Maps.andThen ⟨fun _ => rfl, trivial⟩ (maps_serializeAll hs))
theorem maps_serializeAll : (hs : List Header) → (serializeAll hs).Maps id
  | [] => trivial
  | h :: hs => WProg.Maps.andThen (maps_serialize h) (maps_serializeAll hs)
end

/-! ## The canonical bytes are in the grammar -/

theorem isCount_varint (n : Nat) (h : n < 65536) : IsCount (varint 16 n) n := by
  have := varintDecode_varint 16 n (.inl rfl) h []
  rwa [List.append_nil] at this

mutual
theorem headerBytes_wire : (h : Header) → Countable h → HeaderBytes h (headerWire h)
  | .unit, _ | .boolean, _ | .uint8, _ | .uint16, _ | .uint32, _ | .uint64, _ | .int8, _
  | .int16, _ | .int32, _ | .int64, _ | .float32, _ | .float64, _ | .bigUInt, _ | .bigInt, _
  | .bigDecimal, _ | .string, _ | .binary, _ | .date, _ | .dateTime, _ => .scalar _ _ rfl
  | .optional h, hc => .optional h _ (headerBytes_wire h hc)
  | .array h, hc => .array h _ (headerBytes_wire h hc)
  | .map h, hc => .map h _ (headerBytes_wire h hc)
  | .tuple hs, hc => .tuple hs _ _ (isCount_varint _ hc.1) (headersBytes_wire hs hc.2)
  | .enum hs, hc => .enum hs _ _ (isCount_varint _ hc.1) (headersBytes_wire hs hc.2)
theorem headersBytes_wire : (hs : List Header) → AllCountable hs →
    HeadersBytes hs (headersWire hs)
  | [], _ => .nil
  | h :: hs, hc => .cons h hs _ _ (headerBytes_wire h hc.1) (headersBytes_wire hs hc.2)
end

/-! ## One step of the decoder -/

/-- What a type code announces. -/
inductive Kind where
  | scalar (h : Header)
  | optional
  | array
  | map
  | tuple
  | enum
  | bad

/-- The decoder's classification of codes. -/
def kind (code : UInt8) : Kind :=
  if code = UNIT_CODE then .scalar .unit
  else if code = OPTIONAL_CODE then .optional
  else if code = BOOLEAN_CODE then .scalar .boolean
  else if code = UINT8_CODE then .scalar .uint8
  else if code = UINT16_CODE then .scalar .uint16
  else if code = UINT32_CODE then .scalar .uint32
  else if code = UINT64_CODE then .scalar .uint64
  else if code = INT8_CODE then .scalar .int8
  else if code = INT16_CODE then .scalar .int16
  else if code = INT32_CODE then .scalar .int32
  else if code = INT64_CODE then .scalar .int64
  else if code = FLOAT32_CODE then .scalar .float32
  else if code = FLOAT64_CODE then .scalar .float64
  else if code = BIG_UINT_CODE then .scalar .bigUInt
  else if code = BIG_INT_CODE then .scalar .bigInt
  else if code = BIG_DECIMAL_CODE then .scalar .bigDecimal
  else if code = STRING_CODE then .scalar .string
  else if code = BINARY_CODE then .scalar .binary
  else if code = ARRAY_CODE then .array
  else if code = TUPLE_CODE then .tuple
  else if code = MAP_CODE then .map
  else if code = ENUM_CODE then .enum
  else if code = DATE_CODE then .scalar .date
  else if code = DATETIME_CODE then .scalar .dateTime
  else .bad

/-- What is read after a code. -/
def after (size d : Nat) : Kind → Prog IoErr Header
  | .scalar h => .done (.ok h)
  | .optional => (deserialize size d).bind fun h => .done (.ok (.optional h))
  | .array => (deserialize size d).bind fun h => .done (.ok (.array h))
  | .map => (deserialize size d).bind fun h => .done (.ok (.map h))
  | .tuple => decodeU16.bind fun n => .alloc (n.toNat * size)
      ((replicateM n.toNat (deserialize size d)).bind fun hs => .done (.ok (.tuple hs)))
  | .enum => decodeU16.bind fun n => .alloc (n.toNat * size)
      ((replicateM n.toNat (deserialize size d)).bind fun hs => .done (.ok (.enum hs)))
  | .bad => .done (.err .invalidData)

theorem deserialize_succ (size d : Nat) : deserialize size (d + 1) =
    .readExact 1 id fun buf => after size d (kind buf[0]) := by
  rw [deserialize]
  congr 1
  funext buf
  simp only [Prog.pure_eq, Prog.bind_eq]
  generalize (buf[0] : UInt8) = c
  rw [kind]
  simp only [apply_ite (after size d)]
  rfl

theorem exec_succ_nil (t : Target) (fin : Ending) (size d : Nat) :
    Prog.exec t fin (deserialize size (d + 1)) [] = .err fin.shortErr := by
  rw [deserialize_succ]; simp [Prog.exec]

theorem exec_succ_cons (t : Target) (fin : Ending) (size d : Nat) (b : UInt8) (bs : List UInt8) :
    Prog.exec t fin (deserialize size (d + 1)) (b :: bs)
      = Prog.exec t fin (after size d (kind b)) bs := by
  rw [deserialize_succ]; simp [Prog.exec, takeVec]

theorem kind_scalar {b : UInt8} {h : Header} : kind b = .scalar h ↔ scalarCode h = some b := by
  constructor
  · unfold kind
    iterate 24
      refine iteInduction (motive := fun k : Kind => k = .scalar h → scalarCode h = some b) ?_ ?_
      · intro hb h'
        first
          | (injection h' with h'; subst h' hb; rfl)
          | cases h'
      intro _
    intro h'
    cases h'
  · cases h <;> intro h' <;> simp only [scalarCode, reduceCtorEq, Option.some.injEq] at h' <;>
      subst h' <;> rfl

theorem kind_cases (b : UInt8) : (∃ h, kind b = .scalar h) ∨ b = 1 ∨ b = 20 ∨ b = 23 ∨ b = 21 ∨
    b = 24 ∨ kind b = .bad := by
  unfold kind
  iterate 24
    refine iteInduction (motive := fun k : Kind => (∃ h, k = .scalar h) ∨ b = 1 ∨ b = 20 ∨ b = 23 ∨
      b = 21 ∨ b = 24 ∨ k = .bad) ?_ ?_
    · intro hb
      first
        | exact .inl ⟨_, rfl⟩
        | (subst hb; simp [OPTIONAL_CODE, ARRAY_CODE, MAP_CODE, TUPLE_CODE, ENUM_CODE])
    intro _
  simp

/-! ## Properties of the decoder program -/

theorem strict_replicateM {p : Prog IoErr α} (hp : Prog.Strict id p) (n : Nat) :
    Prog.Strict id (replicateM n p) := by
  induction n with
  | zero => trivial
  | succ n ih => exact hp.bind fun _ => ih.bind fun _ => trivial

theorem strict_deserialize (size d : Nat) : Prog.Strict id (deserialize size d) := by
  induction d with
  | zero => trivial
  | succ d ih =>
    rw [deserialize_succ]
    refine ⟨fun _ => rfl, fun bs => ?_⟩
    simp only
    cases kind bs[0] with
    | scalar h => trivial
    | optional => exact ih.bind fun _ => trivial
    | array => exact ih.bind fun _ => trivial
    | map => exact ih.bind fun _ => trivial
    | tuple => exact De.strict_u16.bind fun _ => (strict_replicateM ih _).bind fun _ => trivial
    | enum => exact De.strict_u16.bind fun _ => (strict_replicateM ih _).bind fun _ => trivial
    | bad => trivial

theorem deeper_replicateM {ε : Type} {p q : Prog ε α} (h : Prog.Deeper p q) (n : Nat) :
    Prog.Deeper (replicateM n p) (replicateM n q) := by
  induction n with
  | zero => exact .inr rfl
  | succ n ih => exact Prog.Deeper.bind h fun _ => Prog.Deeper.bind ih fun _ => .inr rfl

theorem deeper_succ (size d : Nat) : Prog.Deeper (deserialize size d) (deserialize size (d + 1)) := by
  induction d with
  | zero => exact .inl rfl
  | succ d ih =>
    rw [deserialize_succ, deserialize_succ]
    refine ⟨_, rfl, fun bs => ?_⟩
    simp only
    cases kind bs[0] with
    | scalar h => exact .inr rfl
    | optional => exact ih.bind fun _ => .inr rfl
    | array => exact ih.bind fun _ => .inr rfl
    | map => exact ih.bind fun _ => .inr rfl
    | tuple =>
      exact (Prog.Deeper.refl _).bind fun _ =>
        ⟨_, rfl, (deeper_replicateM ih _).bind fun _ => .inr rfl⟩
    | enum =>
      exact (Prog.Deeper.refl _).bind fun _ =>
        ⟨_, rfl, (deeper_replicateM ih _).bind fun _ => .inr rfl⟩
    | bad => exact .inr rfl

theorem exec_deeper {t : Target} {fin : Ending} {size d : Nat} {bs : List UInt8}
    (h : Prog.exec t fin (deserialize size d) bs ≠ .panic .stackOverflow) (k : Nat) :
    Prog.exec t fin (deserialize size (d + k)) bs = Prog.exec t fin (deserialize size d) bs := by
  induction k with
  | zero => rfl
  | succ k ih =>
    rw [← Nat.add_assoc]
    rw [(deeper_succ size (d + k)).exec bs (by rw [ih]; exact h), ih]

/-! ## Decoding what the grammar admits -/

/-- The target can allocate a vector of 65535 headers. -/
def Room (t : Target) (size : Nat) : Prop :=
  65535 * size ≤ t.memLimit ∧ 65535 * size ≤ t.isizeMax

theorem Room.allocate {t : Target} {size : Nat} (h : Room t size) (n : UInt16) :
    t.allocate (n.toNat * size) = none := by
  have hn : n.toNat * size ≤ 65535 * size := Nat.mul_le_mul_right _ (by have := n.toNat_lt; omega)
  rw [Target.allocate, if_neg (by have := h.2; omega), if_neg (by have := h.1; omega)]

theorem exec_decodeU16_isCount (t : Target) (fin : Ending) {cnt : List UInt8} {n : Nat}
    (h : IsCount cnt n) (rest : List UInt8) :
    n < 65536 ∧ Prog.exec t fin decodeU16 (cnt ++ rest) = .ok (UInt16.ofNat n, rest) := by
  have hn : n < 65536 := by
    cases cnt with
    | nil => simp [IsCount, varintDecode] at h
    | cons b bs => exact (varintDecode_bound 16 (.inl rfl) b bs [] n h).1
  refine ⟨hn, ?_⟩
  have h' : Prog.exec t .eof decodeU16 cnt = .ok (UInt16.ofNat n, []) := by
    rw [exec_decodeU16, h]; rfl
  simpa using Prog.exec_append t .eof De.strict_u16 h' fin (more := rest)

mutual
theorem exec_grammar {t : Target} {size : Nat} (hr : Room t size) (fin : Ending) :
    (h : Header) → (bs : List UInt8) → HeaderBytes h bs → (d : Nat) → depth h ≤ d →
    (rest : List UInt8) → Prog.exec t fin (deserialize size d) (bs ++ rest) = .ok (h, rest)
  | h, _, .scalar _ c hc, d, hd, rest => by
    cases d with
    | zero => cases h <;> simp [depth] at hd
    | succ d =>
      rw [List.singleton_append, exec_succ_cons, kind_scalar.mpr hc]
      simp [after, Prog.exec]
  | .optional h, _, .optional _ bs hb, d, hd, rest => by
    cases d with
    | zero => simp [depth] at hd
    | succ d =>
      simp only [depth] at hd
      rw [List.cons_append, exec_succ_cons, show kind 1 = .optional from rfl, after,
        Prog.exec_bind, exec_grammar hr fin h bs hb d (by omega) rest]
      rfl
  | .array h, _, .array _ bs hb, d, hd, rest => by
    cases d with
    | zero => simp [depth] at hd
    | succ d =>
      simp only [depth] at hd
      rw [List.cons_append, exec_succ_cons, show kind 20 = .array from rfl, after,
        Prog.exec_bind, exec_grammar hr fin h bs hb d (by omega) rest]
      rfl
  | .map h, _, .map _ bs hb, d, hd, rest => by
    cases d with
    | zero => simp [depth] at hd
    | succ d =>
      simp only [depth] at hd
      rw [List.cons_append, exec_succ_cons, show kind 23 = .map from rfl, after,
        Prog.exec_bind, exec_grammar hr fin h bs hb d (by omega) rest]
      rfl
  | .tuple hs, _, .tuple _ cnt bs hcnt hb, d, hd, rest => by
    cases d with
    | zero => simp [depth] at hd
    | succ d =>
      simp only [depth] at hd
      obtain ⟨hn, hx⟩ := exec_decodeU16_isCount t fin hcnt (bs ++ rest)
      have hlen : (UInt16.ofNat hs.length).toNat = hs.length := by
        rw [UInt16.toNat_ofNat', Nat.mod_eq_of_lt hn]
      rw [List.cons_append, exec_succ_cons, show kind 21 = .tuple from rfl, after,
        Prog.exec_bind, List.append_assoc, hx, Prog.next_ok, Prog.exec, hr.allocate]
      simp only
      rw [Prog.exec_bind, hlen, exec_grammarAll hr fin hs bs hb d (by omega) rest]
      rfl
  | .enum hs, _, .enum _ cnt bs hcnt hb, d, hd, rest => by
    cases d with
    | zero => simp [depth] at hd
    | succ d =>
      simp only [depth] at hd
      obtain ⟨hn, hx⟩ := exec_decodeU16_isCount t fin hcnt (bs ++ rest)
      have hlen : (UInt16.ofNat hs.length).toNat = hs.length := by
        rw [UInt16.toNat_ofNat', Nat.mod_eq_of_lt hn]
      rw [List.cons_append, exec_succ_cons, show kind 24 = .enum from rfl, after,
        Prog.exec_bind, List.append_assoc, hx, Prog.next_ok, Prog.exec, hr.allocate]
      simp only
      rw [Prog.exec_bind, hlen, exec_grammarAll hr fin hs bs hb d (by omega) rest]
      rfl
theorem exec_grammarAll {t : Target} {size : Nat} (hr : Room t size) (fin : Ending) :
    (hs : List Header) → (bs : List UInt8) → HeadersBytes hs bs → (d : Nat) → depthAll hs ≤ d →
    (rest : List UInt8) →
    Prog.exec t fin (replicateM hs.length (deserialize size d)) (bs ++ rest) = .ok (hs, rest)
  | [], _, .nil, _, _, rest => rfl
  | h :: hs, _, .cons _ _ b1 b2 h1 h2, d, hd, rest => by
    simp only [depthAll] at hd
    rw [List.length_cons, replicateM, Prog.bind_eq, Prog.exec_bind, List.append_assoc,
      exec_grammar hr fin h b1 h1 d (by omega) (b2 ++ rest), Prog.next_ok, Prog.bind_eq,
      Prog.exec_bind, exec_grammarAll hr fin hs b2 h2 d (by omega) rest]
    rfl
end

/-! ## Everything decoded is in the grammar -/

theorem next_ok_iff {ε α β : Type} {o : Outcome ε (α × List UInt8)}
    {f : α → List UInt8 → Outcome ε (β × List UInt8)} {b : β} {r : List UInt8} :
    Prog.next o f = .ok (b, r) ↔ ∃ a r', o = .ok (a, r') ∧ f a r' = .ok (b, r) := by
  rcases o with ⟨a, r'⟩ | e | q
  · simp only [Prog.next_ok, Outcome.ok.injEq, Prod.mk.injEq]
    exact ⟨fun h => ⟨_, _, ⟨rfl, rfl⟩, h⟩, by rintro ⟨_, _, ⟨rfl, rfl⟩, h⟩; exact h⟩
  · simp
  · simp

theorem exec_decodeU16_ok {t : Target} {fin : Ending} {bs rest : List UInt8} {n : UInt16}
    (h : Prog.exec t fin decodeU16 bs = .ok (n, rest)) :
    ∃ cnt, bs = cnt ++ rest ∧ IsCount cnt n.toNat := by
  obtain ⟨used, hb, hu, -⟩ := Prog.exec_split t fin De.strict_u16 h
  refine ⟨used, hb, ?_⟩
  have := hu .eof []
  rw [List.append_nil, exec_decodeU16] at this
  cases hd : varintDecode 16 used with
  | none => rw [hd] at this; simp [ofSpec] at this
  | some vr =>
    obtain ⟨v, r⟩ := vr
    rw [hd] at this
    simp only [ofSpec, Outcome.ok.injEq, Prod.mk.injEq] at this
    have hv : v < 65536 := by
      cases used with
      | nil => simp [varintDecode] at hd
      | cons b bs => exact (varintDecode_bound 16 (.inl rfl) b bs r v hd).1
    rw [IsCount, hd, ← this.1, UInt16.toNat_ofNat', Nat.mod_eq_of_lt hv, this.2]

theorem replicateM_sound {t : Target} {fin : Ending} {p : Prog IoErr Header}
    (hp : ∀ bs h rest, Prog.exec t fin p bs = .ok (h, rest) →
      ∃ enc, bs = enc ++ rest ∧ HeaderBytes h enc)
    (n : Nat) (bs : List UInt8) (hs : List Header) (rest : List UInt8)
    (h : Prog.exec t fin (replicateM n p) bs = .ok (hs, rest)) :
    hs.length = n ∧ ∃ enc, bs = enc ++ rest ∧ HeadersBytes hs enc := by
  induction n generalizing bs hs with
  | zero =>
    simp only [replicateM, Prog.pure_eq, Prog.exec, Outcome.ok.injEq, Prod.mk.injEq] at h
    obtain ⟨rfl, rfl⟩ := h
    exact ⟨rfl, [], rfl, .nil⟩
  | succ n ih =>
    simp only [replicateM, Prog.pure_eq, Prog.bind_eq, Prog.exec_bind, next_ok_iff, Prog.exec,
      Outcome.ok.injEq, Prod.mk.injEq] at h
    obtain ⟨a, r1, h1, as, r2, h2, rfl, rfl⟩ := h
    obtain ⟨e1, rfl, g1⟩ := hp _ _ _ h1
    obtain ⟨hl, e2, rfl, g2⟩ := ih _ _ h2
    exact ⟨by simp [hl], e1 ++ e2, by simp, .cons _ _ _ _ g1 g2⟩

theorem exec_sound (t : Target) (fin : Ending) (size d : Nat) (bs : List UInt8) (h : Header)
    (rest : List UInt8) (hx : Prog.exec t fin (deserialize size d) bs = .ok (h, rest)) :
    ∃ enc, bs = enc ++ rest ∧ HeaderBytes h enc := by
  induction d generalizing bs h rest with
  | zero => simp [deserialize, Prog.exec] at hx
  | succ d ih =>
    cases bs with
    | nil => rw [exec_succ_nil] at hx; simp at hx
    | cons b bs =>
      rw [exec_succ_cons] at hx
      rcases kind_cases b with ⟨h', hk⟩ | rfl | rfl | rfl | rfl | rfl | hk
      · rw [hk] at hx
        simp only [after, Prog.exec, Outcome.ok.injEq, Prod.mk.injEq] at hx
        obtain ⟨rfl, rfl⟩ := hx
        exact ⟨[b], rfl, .scalar _ _ (kind_scalar.mp hk)⟩
      · rw [show kind 1 = .optional from rfl, after] at hx
        simp only [Prog.exec_bind, next_ok_iff, Prog.exec, Outcome.ok.injEq, Prod.mk.injEq] at hx
        obtain ⟨a, r1, h1, rfl, rfl⟩ := hx
        obtain ⟨enc, rfl, g⟩ := ih _ _ _ h1
        exact ⟨1 :: enc, rfl, .optional _ _ g⟩
      · rw [show kind 20 = .array from rfl, after] at hx
        simp only [Prog.exec_bind, next_ok_iff, Prog.exec, Outcome.ok.injEq, Prod.mk.injEq] at hx
        obtain ⟨a, r1, h1, rfl, rfl⟩ := hx
        obtain ⟨enc, rfl, g⟩ := ih _ _ _ h1
        exact ⟨20 :: enc, rfl, .array _ _ g⟩
      · rw [show kind 23 = .map from rfl, after] at hx
        simp only [Prog.exec_bind, next_ok_iff, Prog.exec, Outcome.ok.injEq, Prod.mk.injEq] at hx
        obtain ⟨a, r1, h1, rfl, rfl⟩ := hx
        obtain ⟨enc, rfl, g⟩ := ih _ _ _ h1
        exact ⟨23 :: enc, rfl, .map _ _ g⟩
      · rw [show kind 21 = .tuple from rfl, after] at hx
        simp only [Prog.exec_bind, next_ok_iff, Prog.exec] at hx
        obtain ⟨n, r1, h1, h2⟩ := hx
        split at h2
        · simp at h2
        · simp only [next_ok_iff, Outcome.ok.injEq, Prod.mk.injEq] at h2
          obtain ⟨hs, r2, h2, rfl, rfl⟩ := h2
          obtain ⟨cnt, rfl, gc⟩ := exec_decodeU16_ok h1
          obtain ⟨hl, enc, rfl, g⟩ := replicateM_sound ih _ _ _ _ h2
          exact ⟨21 :: (cnt ++ enc), by simp, .tuple _ _ _ (by rw [hl]; exact gc) g⟩
      · rw [show kind 24 = .enum from rfl, after] at hx
        simp only [Prog.exec_bind, next_ok_iff, Prog.exec] at hx
        obtain ⟨n, r1, h1, h2⟩ := hx
        split at h2
        · simp at h2
        · simp only [next_ok_iff, Outcome.ok.injEq, Prod.mk.injEq] at h2
          obtain ⟨hs, r2, h2, rfl, rfl⟩ := h2
          obtain ⟨cnt, rfl, gc⟩ := exec_decodeU16_ok h1
          obtain ⟨hl, enc, rfl, g⟩ := replicateM_sound ih _ _ _ _ h2
          exact ⟨24 :: (cnt ++ enc), by simp, .enum _ _ _ (by rw [hl]; exact gc) g⟩
      · rw [hk] at hx
        simp [after, Prog.exec] at hx

/-! ## Stack use and other panics -/

theorem next_panic_iff {ε α β : Type} {o : Outcome ε (α × List UInt8)}
    {f : α → List UInt8 → Outcome ε (β × List UInt8)} {q : PanicKind} :
    Prog.next o f = .panic q ↔ o = .panic q ∨ ∃ a r', o = .ok (a, r') ∧ f a r' = .panic q := by
  rcases o with ⟨a, r'⟩ | e | q'
  · simp only [Prog.next_ok, Outcome.ok.injEq, Prod.mk.injEq, reduceCtorEq, false_or]
    exact ⟨fun h => ⟨_, _, ⟨rfl, rfl⟩, h⟩, by rintro ⟨_, _, ⟨rfl, rfl⟩, h⟩; exact h⟩
  · simp
  · simp

theorem exec_ok_length {ε α : Type} {e : IoErr → ε} {t : Target} {fin : Ending} {p : Prog ε α}
    (hp : Prog.Strict e p) {bs rest : List UInt8} {a : α}
    (h : Prog.exec t fin p bs = .ok (a, rest)) : rest.length ≤ bs.length := by
  obtain ⟨used, hb, -⟩ := Prog.exec_split t fin hp h
  rw [hb, List.length_append]; omega

theorem exec_u16_returns (t : Target) (fin : Ending) (bs : List UInt8) (q : PanicKind) :
    Prog.exec t fin decodeU16 bs ≠ .panic q := by
  intro h
  have := (De.total_u16 t).exec fin bs
  rw [h] at this
  exact this

theorem replicateM_no_panic {t : Target} {fin : Ending} {p : Prog IoErr Header}
    (hs : Prog.Strict id p) (m : Nat)
    (hp : ∀ bs q, bs.length ≤ m → Prog.exec t fin p bs ≠ .panic q)
    (n : Nat) (bs : List UInt8) (q : PanicKind) (hm : bs.length ≤ m) :
    Prog.exec t fin (replicateM n p) bs ≠ .panic q := by
  induction n generalizing bs with
  | zero => simp [replicateM, Prog.exec]
  | succ n ih =>
    rw [replicateM, Prog.bind_eq, Prog.exec_bind]
    intro h
    rw [next_panic_iff] at h
    rcases h with h | ⟨a, r, h1, h2⟩
    · exact hp _ _ hm h
    · have hl := exec_ok_length hs h1
      rw [Prog.bind_eq, Prog.exec_bind, next_panic_iff] at h2
      rcases h2 with h2 | ⟨as, r', h2, h3⟩
      · exact ih _ (by omega) h2
      · simp [Prog.exec] at h3

/-- With one stack frame per input byte and one more, and room for the vectors,
decoding returns. -/
theorem exec_no_panic {t : Target} {size : Nat} (hr : Room t size) (fin : Ending) (d : Nat)
    (bs : List UInt8) (hd : bs.length < d) (q : PanicKind) :
    Prog.exec t fin (deserialize size d) bs ≠ .panic q := by
  induction d generalizing bs q with
  | zero => omega
  | succ d ih =>
    cases bs with
    | nil => rw [exec_succ_nil]; simp
    | cons b bs =>
      simp only [List.length_cons] at hd
      rw [exec_succ_cons]
      have hone : ∀ f : Header → Header, Prog.exec t fin
          ((deserialize size d).bind fun h => .done (.ok (f h))) bs ≠ .panic q := by
        intro f h
        rw [Prog.exec_bind, next_panic_iff] at h
        rcases h with h | ⟨a, r, -, h⟩
        · exact ih bs (by omega) q h
        · simp [Prog.exec] at h
      have hmany : ∀ f : List Header → Header, Prog.exec t fin
          (decodeU16.bind fun n => .alloc (n.toNat * size)
            ((replicateM n.toNat (deserialize size d)).bind fun hs => .done (.ok (f hs)))) bs
          ≠ .panic q := by
        intro f h
        rw [Prog.exec_bind, next_panic_iff] at h
        rcases h with h | ⟨n, r, h1, h⟩
        · exact exec_u16_returns _ _ _ _ h
        · have hl := exec_ok_length De.strict_u16 h1
          simp only [Prog.exec, hr.allocate, Prog.exec_bind] at h
          rw [next_panic_iff] at h
          rcases h with h | ⟨a, r', -, h⟩
          · exact replicateM_no_panic (strict_deserialize size d) r.length
              (fun bs' q' hb => ih bs' (by omega) q') _ _ _ (Nat.le_refl _) h
          · simp at h
      cases kind b with
      | scalar h => simp [after, Prog.exec]
      | optional => exact hone _
      | array => exact hone _
      | map => exact hone _
      | tuple => exact hmany _
      | enum => exact hmany _
      | bad => simp [after, Prog.exec]

/-! ## Errors -/

theorem next_err_iff {ε α β : Type} {o : Outcome ε (α × List UInt8)}
    {f : α → List UInt8 → Outcome ε (β × List UInt8)} {e : ε} :
    Prog.next o f = .err e ↔ o = .err e ∨ ∃ a r', o = .ok (a, r') ∧ f a r' = .err e := by
  rcases o with ⟨a, r'⟩ | e' | q'
  · simp only [Prog.next_ok, Outcome.ok.injEq, Prod.mk.injEq, reduceCtorEq, false_or]
    exact ⟨fun h => ⟨_, _, ⟨rfl, rfl⟩, h⟩, by rintro ⟨_, _, ⟨rfl, rfl⟩, h⟩; exact h⟩
  · simp
  · simp

/-- An incomplete count can be completed. -/
theorem complete_count (bs : List UInt8) (h : varintDecode 16 bs = none) :
    ∃ more n, more ≠ [] ∧ IsCount (bs ++ more) n := by
  cases bs with
  | nil => exact ⟨[0], 0, by simp, by unfold IsCount; decide +kernel⟩
  | cons b bs =>
    have hlt := (varintDecode_none_iff 16 b bs).mp h
    refine ⟨List.replicate (extraBytes 16 b - bs.length) 0, ?_⟩
    have hl : (bs ++ List.replicate (extraBytes 16 b - bs.length) 0).length = extraBytes 16 b := by
      simp; omega
    cases hd : varintDecode 16 (b :: (bs ++ List.replicate (extraBytes 16 b - bs.length) 0)) with
    | none =>
      have := (varintDecode_none_iff 16 b _).mp hd
      omega
    | some vr =>
      obtain ⟨v, r⟩ := vr
      obtain ⟨-, -, hr, -⟩ := varintDecode_bound 16 (.inl rfl) b _ r v hd
      have hr' : r = [] := by
        rw [hr]; exact List.drop_of_length_le (by omega)
      refine ⟨v, ?_, ?_⟩
      · intro h0
        have := congrArg List.length h0
        simp only [List.length_replicate, List.length_nil] at this
        omega
      · rw [IsCount, List.cons_append, hd, hr']

theorem headersBytes_units (n : Nat) :
    HeadersBytes (List.replicate n .unit) (List.replicate n 0) := by
  induction n with
  | zero => exact .nil
  | succ n ih =>
    rw [List.replicate_succ, List.replicate_succ]
    exact .cons _ _ [0] _ (.scalar _ _ rfl) ih

theorem replicateM_err {t : Target} {p : Prog IoErr Header}
    (hok : ∀ bs h rest, Prog.exec t .eof p bs = .ok (h, rest) →
      ∃ enc, bs = enc ++ rest ∧ HeaderBytes h enc)
    (herr : ∀ bs e, Prog.exec t .eof p bs = .err e → (e = .unexpectedEof ∧ ∃ more h, more ≠ [] ∧
      HeaderBytes h (bs ++ more)) ∨ e = .invalidData)
    (n : Nat) (bs : List UInt8) (e : IoErr) (h : Prog.exec t .eof (replicateM n p) bs = .err e) :
    (e = .unexpectedEof ∧ ∃ more hs, more ≠ [] ∧ hs.length = n ∧ HeadersBytes hs (bs ++ more)) ∨
      e = .invalidData := by
  induction n generalizing bs with
  | zero => simp [replicateM, Prog.exec] at h
  | succ n ih =>
    rw [replicateM, Prog.bind_eq, Prog.exec_bind, next_err_iff] at h
    rcases h with h | ⟨a, r, h1, h2⟩
    · rcases herr _ _ h with ⟨he, more, h', hm, g⟩ | he
      · refine .inl ⟨he, more ++ List.replicate n 0, h' :: List.replicate n .unit, by simp [hm],
          by simp, ?_⟩
        rw [← List.append_assoc]
        exact .cons _ _ _ _ g (headersBytes_units n)
      · exact .inr he
    · rw [Prog.bind_eq, Prog.exec_bind, next_err_iff] at h2
      rcases h2 with h2 | ⟨as, r', -, h3⟩
      · obtain ⟨enc, rfl, g⟩ := hok _ _ _ h1
        rcases ih _ h2 with ⟨he, more, hs, hm, hl, gs⟩ | he
        · refine .inl ⟨he, more, a :: hs, hm, by simp [hl], ?_⟩
          rw [List.append_assoc]
          exact .cons _ _ _ _ g gs
        · exact .inr he
      · simp [Prog.exec] at h3

/-- An error is `UnexpectedEof`, and then the input can be completed to a header,
or `InvalidData`. -/
theorem exec_err (t : Target) (size d : Nat) (bs : List UInt8) (e : IoErr)
    (hx : Prog.exec t .eof (deserialize size d) bs = .err e) :
    (e = .unexpectedEof ∧ ∃ more h, more ≠ [] ∧ HeaderBytes h (bs ++ more)) ∨ e = .invalidData := by
  induction d generalizing bs e with
  | zero => simp [deserialize, Prog.exec] at hx
  | succ d ih =>
    cases bs with
    | nil =>
      rw [exec_succ_nil] at hx
      simp only [Ending.shortErr, Outcome.err.injEq] at hx
      exact .inl ⟨hx.symm, [0], .unit, by simp, .scalar _ _ rfl⟩
    | cons b bs =>
      rw [exec_succ_cons] at hx
      rcases kind_cases b with ⟨h', hk⟩ | rfl | rfl | rfl | rfl | rfl | hk
      · rw [hk] at hx
        simp [after, Prog.exec] at hx
      · rw [show kind 1 = .optional from rfl, after, Prog.exec_bind, next_err_iff] at hx
        rcases hx with hx | ⟨a, r, -, hx⟩
        · rcases ih _ _ hx with ⟨he, more, h, hm, g⟩ | he
          · exact .inl ⟨he, more, _, hm, .optional _ _ g⟩
          · exact .inr he
        · simp [Prog.exec] at hx
      · rw [show kind 20 = .array from rfl, after, Prog.exec_bind, next_err_iff] at hx
        rcases hx with hx | ⟨a, r, -, hx⟩
        · rcases ih _ _ hx with ⟨he, more, h, hm, g⟩ | he
          · exact .inl ⟨he, more, _, hm, .array _ _ g⟩
          · exact .inr he
        · simp [Prog.exec] at hx
      · rw [show kind 23 = .map from rfl, after, Prog.exec_bind, next_err_iff] at hx
        rcases hx with hx | ⟨a, r, -, hx⟩
        · rcases ih _ _ hx with ⟨he, more, h, hm, g⟩ | he
          · exact .inl ⟨he, more, _, hm, .map _ _ g⟩
          · exact .inr he
        · simp [Prog.exec] at hx
      all_goals try (rw [hk] at hx; simp only [after, Prog.exec, Outcome.err.injEq] at hx
                     exact .inr hx.symm)
      · rw [show kind 21 = .tuple from rfl, after, Prog.exec_bind, next_err_iff] at hx
        rcases hx with hx | ⟨n, r, h1, hx⟩
        · rw [exec_decodeU16] at hx
          cases hd : varintDecode 16 bs with
          | none =>
            rw [hd] at hx
            simp only [ofSpec, Ending.shortErr, Outcome.err.injEq] at hx
            obtain ⟨more, n, hm, hc⟩ := complete_count bs hd
            refine .inl ⟨hx.symm, more ++ List.replicate n 0, .tuple (List.replicate n .unit),
              by simp [hm], ?_⟩
            rw [List.cons_append, ← List.append_assoc]
            exact .tuple _ _ _ (by rwa [List.length_replicate]) (headersBytes_units n)
          | some vr => rw [hd] at hx; simp [ofSpec] at hx
        · simp only [Prog.exec] at hx
          split at hx
          · simp at hx
          · rw [Prog.exec_bind, next_err_iff] at hx
            obtain ⟨cnt, rfl, gc⟩ := exec_decodeU16_ok h1
            rcases hx with hx | ⟨a, r', -, hx⟩
            · rcases replicateM_err (exec_sound t .eof size d) ih _ _ _ hx with
                ⟨he, more, hs, hm, hl, gs⟩ | he
              · refine .inl ⟨he, more, .tuple hs, hm, ?_⟩
                rw [List.cons_append, List.append_assoc]
                exact .tuple _ _ _ (by rw [hl]; exact gc) gs
              · exact .inr he
            · simp [Prog.exec] at hx
      · rw [show kind 24 = .enum from rfl, after, Prog.exec_bind, next_err_iff] at hx
        rcases hx with hx | ⟨n, r, h1, hx⟩
        · rw [exec_decodeU16] at hx
          cases hd : varintDecode 16 bs with
          | none =>
            rw [hd] at hx
            simp only [ofSpec, Ending.shortErr, Outcome.err.injEq] at hx
            obtain ⟨more, n, hm, hc⟩ := complete_count bs hd
            refine .inl ⟨hx.symm, more ++ List.replicate n 0, .enum (List.replicate n .unit),
              by simp [hm], ?_⟩
            rw [List.cons_append, ← List.append_assoc]
            exact .enum _ _ _ (by rwa [List.length_replicate]) (headersBytes_units n)
          | some vr => rw [hd] at hx; simp [ofSpec] at hx
        · simp only [Prog.exec] at hx
          split at hx
          · simp at hx
          · rw [Prog.exec_bind, next_err_iff] at hx
            obtain ⟨cnt, rfl, gc⟩ := exec_decodeU16_ok h1
            rcases hx with hx | ⟨a, r', -, hx⟩
            · rcases replicateM_err (exec_sound t .eof size d) ih _ _ _ hx with
                ⟨he, more, hs, hm, hl, gs⟩ | he
              · refine .inl ⟨he, more, .enum hs, hm, ?_⟩
                rw [List.cons_append, List.append_assoc]
                exact .enum _ _ _ (by rw [hl]; exact gc) gs
              · exact .inr he
            · simp [Prog.exec] at hx

/-! ## What a failing reader changes -/

/-- An early end of the data is reported as the reader's own error. -/
def report (fin : Ending) (e : IoErr) : IoErr :=
  if e = .unexpectedEof then fin.shortErr else e

theorem next_mapErr {ε ε' α β : Type} (g : ε → ε') (o : Outcome ε (α × List UInt8))
    (f : α → List UInt8 → Outcome ε (β × List UInt8)) :
    (Prog.next o f).mapErr g = Prog.next (o.mapErr g) (fun a r => (f a r).mapErr g) := by
  rcases o with ⟨a, r⟩ | e | q <;> rfl

theorem exec_u16_fin (t : Target) (fin : Ending) (bs : List UInt8) :
    Prog.exec t fin decodeU16 bs = (Prog.exec t .eof decodeU16 bs).mapErr (report fin) := by
  rw [exec_decodeU16, exec_decodeU16]
  cases varintDecode 16 bs <;> rfl

theorem replicateM_fin {t : Target} {fin : Ending} {p : Prog IoErr Header}
    (hp : ∀ bs, Prog.exec t fin p bs = (Prog.exec t .eof p bs).mapErr (report fin)) (n : Nat)
    (bs : List UInt8) : Prog.exec t fin (replicateM n p) bs
      = (Prog.exec t .eof (replicateM n p) bs).mapErr (report fin) := by
  induction n generalizing bs with
  | zero => rfl
  | succ n ih =>
    simp only [replicateM, Prog.bind_eq, Prog.exec_bind, next_mapErr, ← hp, ← ih]
    rfl

theorem exec_fin (t : Target) (fin : Ending) (size d : Nat) (bs : List UInt8) :
    Prog.exec t fin (deserialize size d) bs
      = (Prog.exec t .eof (deserialize size d) bs).mapErr (report fin) := by
  induction d generalizing bs with
  | zero => rfl
  | succ d ih =>
    cases bs with
    | nil => rw [exec_succ_nil, exec_succ_nil]; rfl
    | cons b bs =>
      rw [exec_succ_cons, exec_succ_cons]
      have hmany : ∀ f : List Header → Header, ∀ n : UInt16, ∀ r, Prog.exec t fin
          (.alloc (n.toNat * size)
            ((replicateM n.toNat (deserialize size d)).bind fun hs => .done (.ok (f hs)))) r
          = (Prog.exec t .eof (.alloc (n.toNat * size)
            ((replicateM n.toNat (deserialize size d)).bind fun hs => .done (.ok (f hs)))) r).mapErr
              (report fin) := by
        intro f n r
        simp only [Prog.exec]
        split
        · rfl
        · simp only [Prog.exec_bind, next_mapErr, ← replicateM_fin ih]
          rfl
      cases kind b with
      | scalar h => rfl
      | optional => simp only [after, Prog.exec_bind, next_mapErr, ← ih]; rfl
      | array => simp only [after, Prog.exec_bind, next_mapErr, ← ih]; rfl
      | map => simp only [after, Prog.exec_bind, next_mapErr, ← ih]; rfl
      | tuple => simp only [after, Prog.exec_bind, next_mapErr, ← exec_u16_fin, ← hmany]
      | enum => simp only [after, Prog.exec_bind, next_mapErr, ← exec_u16_fin, ← hmany]
      | bad => rfl

/-! ## Depth -/

mutual
/-- A header deeper than the stack exhausts it. -/
theorem exec_too_deep {t : Target} {size : Nat} (hr : Room t size) (fin : Ending) :
    (h : Header) → (bs : List UInt8) → HeaderBytes h bs → (d : Nat) → d < depth h →
    (rest : List UInt8) →
    Prog.exec t fin (deserialize size d) (bs ++ rest) = .panic .stackOverflow
  | _, _, _, 0, _, _ => rfl
  | h, _, .scalar _ c hc, d + 1, hd, rest => by
    cases h <;> simp [scalarCode] at hc <;> simp [depth] at hd
  | .optional h, _, .optional _ bs hb, d + 1, hd, rest => by
    simp only [depth] at hd
    rw [List.cons_append, exec_succ_cons, show kind 1 = .optional from rfl, after,
      Prog.exec_bind, exec_too_deep hr fin h bs hb d (by omega) rest]
    rfl
  | .array h, _, .array _ bs hb, d + 1, hd, rest => by
    simp only [depth] at hd
    rw [List.cons_append, exec_succ_cons, show kind 20 = .array from rfl, after,
      Prog.exec_bind, exec_too_deep hr fin h bs hb d (by omega) rest]
    rfl
  | .map h, _, .map _ bs hb, d + 1, hd, rest => by
    simp only [depth] at hd
    rw [List.cons_append, exec_succ_cons, show kind 23 = .map from rfl, after,
      Prog.exec_bind, exec_too_deep hr fin h bs hb d (by omega) rest]
    rfl
  | .tuple hs, _, .tuple _ cnt bs hcnt hb, d + 1, hd, rest => by
    simp only [depth] at hd
    obtain ⟨hn, hx⟩ := exec_decodeU16_isCount t fin hcnt (bs ++ rest)
    have hlen : (UInt16.ofNat hs.length).toNat = hs.length := by
      rw [UInt16.toNat_ofNat', Nat.mod_eq_of_lt hn]
    rw [List.cons_append, exec_succ_cons, show kind 21 = .tuple from rfl, after,
      Prog.exec_bind, List.append_assoc, hx, Prog.next_ok, Prog.exec, hr.allocate]
    simp only
    rw [Prog.exec_bind, hlen, exec_too_deepAll hr fin hs bs hb d (by omega) rest]
    rfl
  | .enum hs, _, .enum _ cnt bs hcnt hb, d + 1, hd, rest => by
    simp only [depth] at hd
    obtain ⟨hn, hx⟩ := exec_decodeU16_isCount t fin hcnt (bs ++ rest)
    have hlen : (UInt16.ofNat hs.length).toNat = hs.length := by
      rw [UInt16.toNat_ofNat', Nat.mod_eq_of_lt hn]
    rw [List.cons_append, exec_succ_cons, show kind 24 = .enum from rfl, after,
      Prog.exec_bind, List.append_assoc, hx, Prog.next_ok, Prog.exec, hr.allocate]
    simp only
    rw [Prog.exec_bind, hlen, exec_too_deepAll hr fin hs bs hb d (by omega) rest]
    rfl
theorem exec_too_deepAll {t : Target} {size : Nat} (hr : Room t size) (fin : Ending) :
    (hs : List Header) → (bs : List UInt8) → HeadersBytes hs bs → (d : Nat) → d < depthAll hs →
    (rest : List UInt8) →
    Prog.exec t fin (replicateM hs.length (deserialize size d)) (bs ++ rest)
      = .panic .stackOverflow
  | [], _, .nil, _, hd, _ => by simp [depthAll] at hd
  | h :: hs, _, .cons _ _ b1 b2 h1 h2, d, hd, rest => by
    simp only [depthAll] at hd
    rw [List.length_cons, replicateM, Prog.bind_eq, Prog.exec_bind, List.append_assoc]
    by_cases hh : d < depth h
    · rw [exec_too_deep hr fin h b1 h1 d hh (b2 ++ rest)]; rfl
    · rw [exec_grammar hr fin h b1 h1 d (by omega) (b2 ++ rest), Prog.next_ok, Prog.bind_eq,
        Prog.exec_bind, exec_too_deepAll hr fin hs b2 h2 d (by omega) rest]
      rfl
end

/-! ## Memory -/

theorem allocLe_replicateM {b : Nat} {p : Prog IoErr Header} (hp : Prog.AllocLe b p) (n : Nat) :
    Prog.AllocLe b (replicateM n p) := by
  induction n with
  | zero => trivial
  | succ n ih => exact hp.bind fun _ => ih.bind fun _ => trivial

theorem allocLe_deserialize (size d : Nat) : Prog.AllocLe (65535 * size) (deserialize size d) := by
  induction d with
  | zero => trivial
  | succ d ih =>
    have hle : ∀ n : UInt16, n.toNat * size ≤ 65535 * size := fun n =>
      Nat.mul_le_mul_right _ (by have := n.toNat_lt; omega)
    have h16 : Prog.AllocLe (65535 * size) decodeU16 := De.allocLe_u16 _
    rw [deserialize_succ]
    intro bs
    simp only
    cases kind bs[0] with
    | scalar h => trivial
    | optional => exact ih.bind fun _ => trivial
    | array => exact ih.bind fun _ => trivial
    | map => exact ih.bind fun _ => trivial
    | tuple =>
      exact h16.bind fun n => ⟨hle n, (allocLe_replicateM ih _).bind fun _ => trivial⟩
    | enum =>
      exact h16.bind fun n => ⟨hle n, (allocLe_replicateM ih _).bind fun _ => trivial⟩
    | bad => trivial

theorem noAlloc_u16 : Prog.NoAlloc decodeU16 := by
  refine Prog.NoAlloc.bind (fun _ => trivial : Prog.NoAlloc decodePrefix) fun p => ?_
  split <;> first | trivial | exact fun _ => trivial

theorem paid_replicateM {t : Target} {fin : Ending} {p : Prog IoErr Header}
    (hp : Prog.Paid t fin p) (n : Nat) : Prog.Paid t fin (replicateM n p) := by
  induction n with
  | zero => exact .done _
  | succ n ih => exact hp.bind fun _ => ih.bind fun _ => .done _

theorem exec_u16_used {t : Target} {fin : Ending} {bs rest : List UInt8} {n : UInt16}
    (h : Prog.exec t fin decodeU16 bs = .ok (n, rest)) : rest.length < bs.length := by
  obtain ⟨cnt, rfl, hc⟩ := exec_decodeU16_ok h
  cases cnt with
  | nil => simp [IsCount, varintDecode] at hc
  | cons b bs => simp; omega

theorem paid_deserialize (t : Target) (fin : Ending) (size d : Nat) :
    Prog.Paid t fin (deserialize size d) := by
  induction d with
  | zero => exact .done _
  | succ d ih =>
    intro bs
    cases bs with
    | nil => simp [deserialize_succ, Prog.requests, Prog.left, Prog.exec]
    | cons b bs =>
      have hreq : Prog.requests t fin (deserialize size (d + 1)) (b :: bs)
          = Prog.requests t fin (after size d (kind b)) bs := by
        rw [deserialize_succ]; simp [Prog.requests, takeVec]
      rw [exec_succ_cons, hreq, List.length_cons]
      have hmany : ∀ f : List Header → Header,
          2 * (Prog.requests t fin (decodeU16.bind fun n => .alloc (n.toNat * size)
            ((replicateM n.toNat (deserialize size d)).bind fun hs => .done (.ok (f hs)))) bs).length
          + Prog.left (Prog.exec t fin (decodeU16.bind fun n => .alloc (n.toNat * size)
            ((replicateM n.toNat (deserialize size d)).bind fun hs => .done (.ok (f hs)))) bs)
          ≤ bs.length + 1 := by
        intro f
        rw [Prog.requests_bind, noAlloc_u16.requests, Prog.exec_bind, List.nil_append]
        rcases ho : Prog.exec t fin decodeU16 bs with ⟨n, r⟩ | e | q
        · have hl := exec_u16_used ho
          simp only [Prog.next_ok, Prog.requests, Prog.exec]
          split
          · simp [Prog.left]; omega
          · have := ((paid_replicateM ih n.toNat).bind
              fun hs => Prog.Paid.done (.ok (f hs))) r
            simp only [List.length_cons]
            omega
        · simp [Prog.left]
        · simp [Prog.left]
      have hone : ∀ f : Header → Header,
          2 * (Prog.requests t fin ((deserialize size d).bind fun h => .done (.ok (f h))) bs).length
          + Prog.left (Prog.exec t fin ((deserialize size d).bind fun h => .done (.ok (f h))) bs)
          ≤ bs.length + 1 := by
        intro f
        have := (ih.bind fun h => Prog.Paid.done (.ok (f h))) bs
        omega
      cases kind b with
      | scalar h => simp [after, Prog.requests, Prog.exec, Prog.left]
      | optional => exact hone _
      | array => exact hone _
      | map => exact hone _
      | tuple => exact hmany _
      | enum => exact hmany _
      | bad => simp [after, Prog.requests, Prog.exec, Prog.left]

theorem exec_nested {t : Target} {size : Nat} (hr : Room t size) (fin : Ending) (n : Nat) :
    Prog.exec t fin (deserialize size (n + 1)) (List.replicate n [21, 0xC0, 0xff, 0xff]).flatten
      = .err fin.shortErr := by
  induction n with
  | zero => exact exec_succ_nil ..
  | succ n ih =>
    have hx := (exec_decodeU16_isCount t fin (cnt := [0xC0, 0xff, 0xff]) (n := 65535)
      (by unfold IsCount; decide +kernel)
      (List.replicate n [21, 0xC0, 0xff, 0xff]).flatten).2
    rw [List.replicate_succ, List.flatten_cons, List.cons_append, exec_succ_cons,
      show kind 21 = .tuple from rfl, after, Prog.exec_bind, hx, Prog.next_ok]
    simp only [Prog.exec, hr.allocate]
    rw [show (UInt16.ofNat 65535).toNat = 65535 from rfl, replicateM, Prog.bind_eq,
      Prog.exec_bind, Prog.exec_bind, ih]
    rfl

/-- Nested tuples announcing 65535 members each. -/
theorem requests_nested {t : Target} {size : Nat} (hr : Room t size) (fin : Ending) (n : Nat) :
    Prog.requests t fin (deserialize size (n + 1)) (List.replicate n [21, 0xC0, 0xff, 0xff]).flatten
      = List.replicate n (65535 * size) := by
  induction n with
  | zero => simp [deserialize_succ, Prog.requests]
  | succ n ih =>
    have he := exec_nested hr fin n
    rw [deserialize_succ, List.replicate_succ, List.replicate_succ, List.flatten_cons]
    simp only [List.cons_append, List.nil_append, Prog.requests, List.length_cons, Nat.le_add_left,
      dite_true, takeVec]
    simp only [List.take_succ_cons, List.take_zero, List.drop_succ_cons, List.drop_zero]
    have hk : kind (⟨#[(21 : UInt8)], rfl⟩ : Vector UInt8 1)[0] = .tuple := rfl
    rw [hk, after, Prog.requests_bind, noAlloc_u16.requests]
    have hx := (exec_decodeU16_isCount t fin (cnt := [0xC0, 0xff, 0xff]) (n := 65535)
      (by unfold IsCount; decide +kernel)
      (List.replicate n [21, 0xC0, 0xff, 0xff]).flatten).2
    simp only [List.cons_append, List.nil_append] at hx
    rw [hx]
    simp only [List.nil_append, Prog.requests, hr.allocate]
    rw [show (UInt16.ofNat 65535).toNat = 65535 from rfl, replicateM, Prog.bind_eq,
      Prog.requests_bind, Prog.requests_bind, ih]
    rw [Prog.exec_bind, he]
    simp

mutual
/-- A header is no deeper than its bytes are long. -/
theorem depth_le : (h : Header) → (bs : List UInt8) → HeaderBytes h bs → depth h ≤ bs.length
  | h, _, .scalar _ c hc => by cases h <;> simp [scalarCode] at hc <;> simp [depth]
  | .optional h, _, .optional _ bs hb => by
    have := depth_le h bs hb; simp only [depth, List.length_cons]; omega
  | .array h, _, .array _ bs hb => by
    have := depth_le h bs hb; simp only [depth, List.length_cons]; omega
  | .map h, _, .map _ bs hb => by
    have := depth_le h bs hb; simp only [depth, List.length_cons]; omega
  | .tuple hs, _, .tuple _ cnt bs _ hb => by
    have := depthAll_le hs bs hb
    simp only [depth, List.length_cons, List.length_append]; omega
  | .enum hs, _, .enum _ cnt bs _ hb => by
    have := depthAll_le hs bs hb
    simp only [depth, List.length_cons, List.length_append]; omega
theorem depthAll_le : (hs : List Header) → (bs : List UInt8) → HeadersBytes hs bs →
    depthAll hs ≤ bs.length
  | [], _, .nil => Nat.zero_le _
  | h :: hs, _, .cons _ _ b1 b2 h1 h2 => by
    have := depth_le h b1 h1
    have := depthAll_le hs b2 h2
    simp only [depthAll, List.length_append]; omega
end

end Header
end Dlhn
