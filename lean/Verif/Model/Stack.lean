import Verif.Model.Body
/-!
# Headers and dynamic values with a bounded stack

The recursive functions of dlhn/src/body/mod.rs and dlhn/src/header/ser.rs again, counting the
nested calls: the first argument is the number of nested calls the stack still has room for. The
calls that are not recursive (reading a number, a string, ...) are taken to fit. What is done in
each call is as in Model/Body.lean and Model/Header.lean.
-/
namespace Dlhn

namespace Body

/-- `for inner in inner.iter() { buf.push(..?) }`, dlhn/src/body/mod.rs:124-126. -/
def eachDe (f : Header → Prog DeErr Body) : List Header → Prog DeErr (List Body)
  | [] => pure []
  | h :: hs => do
    let b ← f h
    let bs ← eachDe f hs
    pure (b :: bs)

/-- `Body::deserialize`, dlhn/src/body/mod.rs:80-158. -/
def deOn (t : Target) (mode : BuildMode) (size : Nat) : (stack : Nat) → Header → Prog DeErr Body
  | 0, _ => .done (.panic .stackOverflow)
  | stack + 1, .optional inner => do
    if ← De.deBool then
      pure (.some (← deOn t mode size stack inner))
    else
      pure .none
  | stack + 1, .array inner => do
    let len ← De.deU64
    .alloc (t.asUsize len * size) do
      let buf ← De.times len.toNat (deOn t mode size stack inner)
      pure (.array buf)
  | stack + 1, .tuple inner => .alloc (inner.length * size) do
      let buf ← eachDe (deOn t mode size stack) inner
      pure (.tuple buf)
  | stack + 1, .map inner => do
    let len ← De.deU64
    let buf ← insertLoop t (deOn t mode size stack inner) len.toNat []
    pure (.map buf)
  | stack + 1, .enum inner => do
    let i ← De.deU32
    match inner[i.toNat]? with
    | Option.none => .done (.err .read)
    | Option.some h => do pure (.enum i (← deOn t mode size stack h))
  -- no nested call
  | _ + 1, h => de t mode size h

/-- Elements in order. -/
def eachSer (f : Body → WProg SerErr) : List Body → WProg SerErr
  | [] => .skip
  | b :: bs => (f b).andThen (eachSer f bs)

/-- Entries in order. -/
def eachEntry (f : Body → WProg SerErr) : List (String × Body) → WProg SerErr
  | [] => .skip
  | (k, b) :: es => (Ser.serStr k).andThen ((f b).andThen (eachEntry f es))

/-- `Serialize for Body`, dlhn/src/body/mod.rs:37-77. -/
def serOn (mode : BuildMode) : (stack : Nat) → Body → WProg SerErr
  | 0, _ => .done (.panic .stackOverflow)
  | stack + 1, .some b => (Ser.emit [1]).andThen (serOn mode stack b)
  | stack + 1, .array bs =>
    (Ser.serHint (Option.some bs.length)).andThen (eachSer (serOn mode stack) bs)
  | stack + 1, .tuple bs => eachSer (serOn mode stack) bs
  | stack + 1, .map es =>
    (Ser.serHint (Option.some es.length)).andThen (eachEntry (serOn mode stack) es)
  | stack + 1, .enum i b => (Ser.serU32 i).andThen (serOn mode stack b)
  -- no nested call
  | _ + 1, b => ser mode b

/-- `iter().all(f)`, which stops at the first `false`; `none` if the stack is exhausted. -/
def allOn {α : Type} (f : α → Option Bool) : List α → Option Bool
  | [] => Option.some true
  | a :: as => (f a).bind fun r => if r then allOn f as else Option.some false

/-- `Body::validate`, dlhn/src/body/mod.rs:160-217; `none` if the stack is exhausted. -/
def validateOn : (stack : Nat) → Header → Body → Option Bool
  | 0, _, _ => Option.none
  | stack + 1, .optional inner, .some v => validateOn stack inner v
  | stack + 1, .array inner, .array bs => allOn (validateOn stack inner) bs
  | stack + 1, .tuple hs, .tuple bs =>
    if hs.length == bs.length then allOn (fun p => validateOn stack p.1 p.2) (hs.zip bs)
    else Option.some false
  | stack + 1, .map inner, .map es => allOn (fun e => validateOn stack inner e.2) es
  | stack + 1, .enum hs, .enum i v =>
    match hs[i.toNat]? with
    | Option.none => Option.some false
    | Option.some h => validateOn stack h v
  -- no nested call
  | _ + 1, h, b => Option.some (validate h b)

end Body

namespace Header

/-- `for v in inner { v.serialize(writer)? }`, dlhn/src/header/ser.rs:300-302. -/
def eachSerialize (f : Header → WProg IoErr) : List Header → WProg IoErr
  | [] => .skip
  | h :: hs => (f h).andThen (eachSerialize f hs)

/-- `Header::serialize`, dlhn/src/header/ser.rs:256-304. -/
def serializeOn : (stack : Nat) → Header → WProg IoErr
  | 0, _ => .done (.panic .stackOverflow)
  | stack + 1, .optional inner => (put [OPTIONAL_CODE]).andThen (serializeOn stack inner)
  | stack + 1, .array inner => (put [ARRAY_CODE]).andThen (serializeOn stack inner)
  | stack + 1, .map inner => (put [MAP_CODE]).andThen (serializeOn stack inner)
  | stack + 1, .tuple inner => (put [TUPLE_CODE]).andThen
      ((putCount inner.length).andThen (eachSerialize (serializeOn stack) inner))
  | stack + 1, .enum inner => (put [ENUM_CODE]).andThen
      ((putCount inner.length).andThen (eachSerialize (serializeOn stack) inner))
  -- no nested call
  | _ + 1, h => serialize h

end Header
end Dlhn
