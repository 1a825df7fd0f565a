import Verif.Spec.Sends
import Verif.Spec.Bounds
/-!
# Specification: several writers on one stream

Threads or processes that write to one file opened for appending, to one pipe, or to one
`Arc<Mutex<..>>`, without agreeing on whose turn it is. A call of `write` is not interrupted by
another and takes all of its buffer.
-/
namespace Dlhn.Spec

/-- `Interleaves ls vs ls'`: the elements `vs`, taken one after the other from the sequences
`ls`, each time from any of them, but from each in its order; `ls'` is what is not yet taken. -/
inductive Interleaves {β : Type} : List (List β) → List β → List (List β) → Prop where
  | stop {ls : List (List β)} : Interleaves ls [] ls
  | take {ls ls' : List (List β)} {v : β} {l vs : List β} (i : Nat) (h : ls[i]? = some (v :: l))
      (more : Interleaves (ls.set i l) vs ls') : Interleaves ls (v :: vs) ls'

/-- The calls of `write` of an encoder, if none fails: nothing is written for empty buffers. -/
def writes {ε : Type} (p : WProg ε) : List (List UInt8) := (sends p).filter (· ≠ [])

mutual
/-- How many calls of `write` a value of the type takes at most, if there is a limit. -/
def maxWrites : Ty → Option Nat
  | .bool => some 1
  | .i8 => some 1
  | .u8 => some 1
  | .i16 => some 1
  | .u16 => some 1
  | .i32 => some 1
  | .u32 => some 1
  | .i64 => some 1
  | .u64 => some 1
  | .f32 => some 1
  | .f64 => some 1
  -- the length and the text
  | .char => some 2
  | .string => some 2
  | .byteBuf => some 2
  | .unit => some 0
  | .unitStruct _ => some 0
  -- the tag and the value
  | .option ty => addBound (some 1) (maxWrites ty)
  | .newtypeStruct _ ty => maxWrites ty
  -- only the length if the elements take none
  | .seq ty => if maxWrites ty = some 0 then some 1 else none
  | .tuple ts => maxWritesAll ts
  | .tupleStruct _ ts => maxWritesAll ts
  | .struct _ fs => maxWritesFields fs
  -- the index and the fields
  | .enum _ vs => addBound (some 1) (maxWritesVariants vs)
  | _ => none
/-- Sum over the members. -/
def maxWritesAll : List Ty → Option Nat
  | [] => some 0
  | ty :: ts => addBound (maxWrites ty) (maxWritesAll ts)
/-- Sum over the fields. -/
def maxWritesFields : List (String × Ty) → Option Nat
  | [] => some 0
  | (_, ty) :: fs => addBound (maxWrites ty) (maxWritesFields fs)
/-- The variant whose fields take most. -/
def maxWritesVariants : List (String × VTy) → Option Nat
  | [] => some 0
  | (_, vt) :: vs => maxBound (maxWritesPayload vt) (maxWritesVariants vs)
/-- The fields of a variant. -/
def maxWritesPayload : VTy → Option Nat
  | .unit => some 0
  | .newtype ty => maxWrites ty
  | .tuple ts => maxWritesAll ts
  | .struct fs => maxWritesFields fs
end

end Dlhn.Spec
