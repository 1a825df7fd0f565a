import Verif.Model.WriteCalls
/-!
# Specification: the buffers handed to `write_all`
-/
namespace Dlhn.Spec

/-- The buffers an encoder passes to `write_all`, in order, if no call fails. -/
def sends {ε : Type} : WProg ε → List (List UInt8)
  | .done _ => []
  | .writeAll bs _ k => bs :: sends k

/-- The same for implementations of `Serialize`. -/
def sendsImpl : WCode → List (List UInt8)
  | .done _ => []
  | .writeAll bs k => bs :: sendsImpl (k none)

/-- What a writer does other than accepting bytes. -/
def hindrance : WEvent → Bool
  | .accept (_ + 1) => false
  | _ => true

end Dlhn.Spec
