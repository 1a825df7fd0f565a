import Verif.Spec.Bounds
/-!
# Specification of files with random access

A file is its bytes. The caller seeks to an offset and reads or writes from there.
-/
namespace Dlhn.Spec

/-- The file after `bs` were written at `offset`, over what was there. -/
def overwritten (file : List UInt8) (offset : Nat) (bs : List UInt8) : List UInt8 :=
  file.take offset ++ bs ++ file.drop (offset + bs.length)

/-- All values of the type take `n` bytes, as computed from the type. -/
def FixedSize (t : Target) (ty : Ty) (n : Nat) : Prop := minSize ty = n ∧ maxSize t ty = some n

/-- All bodies of the header take `n` bytes, as computed from the header. -/
def FixedBody (t : Target) (h : Header) (n : Nat) : Prop := minBody h = n ∧ maxBody t h = some n

end Dlhn.Spec
