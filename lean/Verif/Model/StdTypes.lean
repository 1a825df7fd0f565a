import Verif.Model.HumanReadable
import Verif.Model.VisitStd
/-!
# Types of the standard library

serde (not part of /repo) implements `Serialize` and `Deserialize` for types of std. Here
are those whose implementations do more than pass the value inside on (`Box`, `Cow`,
`Wrapping`, ..) or collect elements: the calls they make on dlhn's serializer
(dlhn/src/ser.rs) and deserializer (dlhn/src/de.rs), transcribed from serde's `ser/impls.rs`
and `de/impls.rs`. A type parameter `T` is a type `α` of values with what `T::serialize` and
`T::deserialize` do. The texts of errors are abbreviated.
-/
namespace Dlhn

/-! ## Two named fields: `Duration`, `SystemTime`, `Range`, `RangeInclusive` -/

/-- `serialize_struct(name, 2)`, two `serialize_field(..)?`, `end()`. -/
def pairSer (name n1 n2 : String) (x y : SerImpl) : SerImpl :=
  .struct name 2 (.field n1 x fun
    | none => .field n2 y fun
      | none => .finish
      | some e => .error e
    | some e => .error e)

/-- The `visit_map` of such types: one slot per field; unknown, repeated and missing fields
are errors. -/
def pairFields {β γ α : Type} (n1 n2 : String) (seed1 : Impl β) (seed2 : Impl γ)
    (finish : β → γ → Except DeErr α) :
    (fuel : Nat) → Option β → Option γ → FieldsImpl α
  | 0, _, _ => .error (.message "unreachable")
  | fuel + 1, a, b => .key fun
    | none => match a, b with
      | some x, some y => match finish x y with
        | .ok v => .ok v
        | .error e => .error e
      | none, _ => .error (.message ("missing field `" ++ n1 ++ "`"))
      | _, none => .error (.message ("missing field `" ++ n2 ++ "`"))
    | some key =>
      if key = n1 then match a with
        | none => .value seed1 fun x => pairFields n1 n2 seed1 seed2 finish fuel (some x) b
        | some _ => .error (.message ("duplicate field `" ++ n1 ++ "`"))
      else if key = n2 then match b with
        | none => .value seed2 fun y => pairFields n1 n2 seed1 seed2 finish fuel a (some y)
        | some _ => .error (.message ("duplicate field `" ++ n2 ++ "`"))
      else .error (.message ("unknown field `" ++ key ++ "`"))

/-- `deserialize_struct(name, &[n1, n2], visitor)`. -/
def pairDe {β γ α : Type} (name n1 n2 : String) (seed1 : Impl β) (seed2 : Impl γ)
    (finish : β → γ → Except DeErr α) : Impl α :=
  .struct name [n1, n2] (pairFields n1 n2 seed1 seed2 finish 3 none none)

/-- `std::time::Duration`: seconds and less than 10^9 nanoseconds. -/
structure StdDuration where
  secs : UInt64
  nanos : UInt32
  lt : nanos.toNat < 1000000000

/-- `impl Serialize for Duration`. -/
def StdDuration.serImpl (d : StdDuration) : SerImpl :=
  pairSer "Duration" "secs" "nanos" (.u64 d.secs) (.u32 d.nanos)

/-- `check_overflow(secs, nanos)?; Ok(Duration::new(secs, nanos))`: whole seconds among the
nanoseconds are carried. -/
def StdDuration.make (secs : UInt64) (nanos : UInt32) : Except DeErr StdDuration :=
  if secs.toNat + nanos.toNat / 1000000000 < 2 ^ 64 then
    .ok ⟨UInt64.ofNat (secs.toNat + nanos.toNat / 1000000000),
      UInt32.ofNat (nanos.toNat % 1000000000), by
        rw [UInt32.toNat_ofNat_of_lt'
          (Nat.lt_trans (Nat.mod_lt _ (by decide)) (by decide : 1000000000 < 2 ^ 32))]
        exact Nat.mod_lt _ (by decide)⟩
  else .error (.message "overflow deserializing Duration")

/-- `impl Deserialize for Duration`. -/
def StdDuration.deImpl : Impl StdDuration :=
  pairDe "Duration" "secs" "nanos" .u64 .u32 StdDuration.make

/-- `std::time::SystemTime`, in nanoseconds since the Unix epoch. -/
abbrev StdTime := Int

/-- `impl Serialize for SystemTime`: `duration_since(UNIX_EPOCH)`, an error before it. -/
def stdTimeSer (x : StdTime) : SerImpl :=
  if 0 ≤ x then pairSer "SystemTime" "secs_since_epoch" "nanos_since_epoch"
    (.u64 (UInt64.ofNat (x.toNat / 1000000000))) (.u32 (UInt32.ofNat (x.toNat % 1000000000)))
  else .error (.message "SystemTime must be later than UNIX_EPOCH")

/-- `check_overflow(..)?` and `UNIX_EPOCH.checked_add(Duration::new(secs, nanos))`; the last
representable second is that of the platform, `maxSecs`. -/
def stdTimeMake (maxSecs : Nat) (secs : UInt64) (nanos : UInt32) : Except DeErr StdTime :=
  match StdDuration.make secs nanos with
  | .error e => .error e
  | .ok d =>
    if d.secs.toNat ≤ maxSecs then .ok (d.secs.toNat * 1000000000 + d.nanos.toNat : Nat)
    else .error (.message "overflow deserializing SystemTime")

/-- `impl Deserialize for SystemTime`. -/
def stdTimeDe (maxSecs : Nat) : Impl StdTime :=
  pairDe "SystemTime" "secs_since_epoch" "nanos_since_epoch" .u64 .u32 (stdTimeMake maxSecs)

/-- `impl Serialize for Range<T>` (`RangeInclusive<T>` differs in the name only). -/
def rangeSer {α : Type} (ser : α → SerImpl) (r : α × α) : SerImpl :=
  pairSer "Range" "start" "end" (ser r.1) (ser r.2)

/-- `impl Deserialize for Range<T>`. -/
def rangeDe {α : Type} (de : Impl α) : Impl (α × α) :=
  pairDe "Range" "start" "end" de de fun a b => .ok (a, b)

/-! ## Enums: `Bound`, `Result`, `IpAddr`, `SocketAddr`, `OsString` -/

/-- The visitor of the variant: `visit_u64` with a number from 0 on, `invalid_value` for
others. -/
def variantBelow (n : Nat) : Impl UInt16 :=
  .andThen .identifier fun i =>
    if i.toNat < n then .ok i else .error (.message "invalid value: integer")

/-- `std::ops::Bound<T>`. -/
inductive StdBound (α : Type) where
  | unbounded
  | included (a : α)
  | excluded (a : α)

/-- `impl Serialize for Bound<T>`. -/
def boundSer {α : Type} (ser : α → SerImpl) : StdBound α → SerImpl
  | .unbounded => .unitVariant "Bound" 0 "Unbounded"
  | .included a => .newtypeVariant "Bound" 1 "Included" (ser a)
  | .excluded a => .newtypeVariant "Bound" 2 "Excluded" (ser a)

/-- `impl Deserialize for Bound<T>`. -/
def boundDe {α : Type} (de : Impl α) : Impl (StdBound α) :=
  .enum "Bound" ["Unbounded", "Included", "Excluded"] (variantBelow 3) fun i =>
    if i = 0 then .unit (.ok .unbounded)
    else if i = 1 then .newtype de fun a => .ok (.included a)
    else .newtype de fun a => .ok (.excluded a)

/-- An enum with two newtype variants: `Result<T, E>`, and `IpAddr` and `SocketAddr` for
formats that are not human-readable. -/
def eitherSer {α β : Type} (name n0 n1 : String) (serA : α → SerImpl) (serB : β → SerImpl) :
    α ⊕ β → SerImpl
  | .inl a => .newtypeVariant name 0 n0 (serA a)
  | .inr b => .newtypeVariant name 1 n1 (serB b)

/-- `Deserialize` of such an enum. -/
def eitherDe {α β : Type} (name n0 n1 : String) (deA : Impl α) (deB : Impl β) : Impl (α ⊕ β) :=
  .enum name [n0, n1] (variantBelow 2) fun i =>
    if i = 0 then .newtype deA fun a => .ok (.inl a)
    else .newtype deB fun b => .ok (.inr b)

/-- `impl Serialize for Result<T, E>` (`inl` is `Ok`). -/
def resultSer {α β : Type} (serA : α → SerImpl) (serB : β → SerImpl) : α ⊕ β → SerImpl :=
  eitherSer "Result" "Ok" "Err" serA serB

/-- `impl Deserialize for Result<T, E>`. -/
def resultDe {α β : Type} (deA : Impl α) (deB : Impl β) : Impl (α ⊕ β) :=
  eitherDe "Result" "Ok" "Err" deA deB

/-- `[u8; n]::serialize`: `serialize_tuple(n)` and the elements. -/
def octetsSer {n : Nat} (v : Vector UInt8 n) : SerImpl :=
  .tuple n (seqOfVals (v.toList.map .u8))

/-- The loop of the visitor of `[u8; n]`. -/
def octetsSeq : (n : Nat) → (acc : List UInt8) → SeqImpl (List UInt8)
  | 0, acc => .ok acc
  | n + 1, acc => .next .u8 fun
    | none => .error (.message "invalid length")
    | some x => octetsSeq n (acc ++ [x])

/-- `[u8; n]::deserialize`. -/
def octetsDe (n : Nat) : Impl (List UInt8) := .tuple n fun _ => octetsSeq n []

/-- `impl Serialize for Ipv6Addr`: the text for human-readable formats, else the octets. -/
def ipv6Ser (text : List UInt8 → String) (ip : Vector UInt8 16) : SerImpl :=
  .humanReadable fun
    | true => .str (text ip.toList)
    | false => octetsSer ip

/-- `impl Deserialize for Ipv6Addr`. -/
def ipv6De : Impl (List UInt8) :=
  .humanReadable fun
    | true => .str
    | false => octetsDe 16

/-- `impl Serialize for IpAddr`, for formats that are not human-readable. -/
def ipSer (text : List UInt8 → String) : Ipv4 ⊕ Vector UInt8 16 → SerImpl :=
  eitherSer "IpAddr" "V4" "V6" Ipv4.serImpl (ipv6Ser text)

/-- `impl Deserialize for IpAddr`. -/
def ipDe : Impl (Ipv4 ⊕ List UInt8) :=
  eitherDe "IpAddr" "V4" "V6" Ipv4.deImpl ipv6De

/-- `OsString` on Unix. -/
def osStringSer (bs : List UInt8) : SerImpl :=
  .newtypeVariant "OsString" 0 "Unix" (.seq (some bs.length) (seqOfVals (bs.map .u8)))

/-- `impl Deserialize for OsString` on Unix. -/
def osStringDe : Impl (List UInt8) :=
  .enum "OsString" ["Unix", "Windows"] (variantBelow 2) fun i =>
    if i = 0 then .newtype (.seq fun n => collectSeq .u8 (n + 1) []) .ok
    else .error (.message "cannot deserialize Windows OS string on Unix")

/-! ## Checked values: `NonZero`, `CString`, `PathBuf`, `usize` -/

/-- `impl Deserialize for NonZero<T>`: a zero is `invalid_value`. -/
def nonZeroDe {α : Type} (zero : α → Bool) (de : Impl α) : Impl α :=
  .andThen de fun x => if zero x then .error (.message "invalid value: integer `0`") else .ok x

/-- `impl Serialize for CString`: the bytes without the final NUL. -/
def cstringSer (bs : List UInt8) : SerImpl := .bytes bs

/-- `impl Deserialize for CString`: `CString::new(bytes).map_err(custom)`. -/
def cstringDe : Impl (List UInt8) :=
  .andThen .byteBuf fun bs =>
    if 0 ∈ bs then .error (.message "nul byte found in provided data") else .ok bs

/-- `impl Serialize for PathBuf`: `to_str()`; `path` is the text, if it is UTF-8. -/
def pathSer (path : Option String) : SerImpl :=
  match path with
  | some s => .str s
  | none => .error (.message "path contains invalid UTF-8 characters")

/-- `impl Deserialize for PathBuf`: `deserialize_string`. -/
def pathDe : Impl (Option String) := .andThen .string fun s => .ok (some s)

/-- `impl Serialize for usize`: `serialize_u64(*self as u64)`. -/
def usizeSer (n : Nat) : SerImpl := .u64 (UInt64.ofNat n)

/-- `impl Deserialize for usize`: `deserialize_u64`, checked. -/
def usizeDe (t : Target) : Impl Nat :=
  .andThen .u64 fun n =>
    if n.toNat < 2 ^ t.ptr.bits then .ok n.toNat else .error (.message "invalid value: integer")

/-- `impl Serialize for isize`: `serialize_i64(*self as i64)`. -/
def isizeSer (n : Int) : SerImpl := .i64 (Int64.ofInt n)

/-- `impl Deserialize for isize`: `deserialize_i64`, checked. -/
def isizeDe (t : Target) : Impl Int :=
  .andThen .i64 fun n =>
    if -2 ^ (t.ptr.bits - 1) ≤ n.toInt ∧ n.toInt < 2 ^ (t.ptr.bits - 1) then .ok n.toInt
    else .error (.message "invalid value: integer")

/-! ## Sets -/

/-- `serializer.collect_seq(self)`: the elements in the order of the set. -/
def setSer {α : Type} (ser : α → SerImpl) (xs : List α) : SerImpl :=
  .seq (some xs.length) (go xs)
where
  /-- `serialize_element(..)?` for each, `end()`. -/
  go : List α → SeqSer
    | [] => .finish
    | x :: xs => .element (ser x) fun
      | none => go xs
      | some e => .error e

/-- `values.insert(x)` of a set, kept without duplicates. -/
def setInsert {α : Type} [DecidableEq α] (x : α) (s : List α) : List α :=
  if x ∈ s then s else s ++ [x]

/-- `impl Deserialize for HashSet<T>` and `BTreeSet<T>`: insert what arrives. The order in
which a set keeps its elements is not part of the model. -/
def setDe {α : Type} [DecidableEq α] (de : Impl α) : Impl (List α) :=
  .andThen (.seq fun n => collectSeq de (n + 1) []) fun xs =>
    .ok (xs.foldl (fun s x => setInsert x s) [])

end Dlhn
