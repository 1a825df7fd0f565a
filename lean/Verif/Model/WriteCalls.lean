import Verif.Model.SerImpl
/-!
# The calls made on a writer

`Model/Writer.lean` says what reaches a writer; this counts the calls of `write` behind it.
-/
namespace Dlhn

/-- The number of calls of `write` in `std::io::Write::write_all`: none for an empty buffer,
else one per round of the loop of `WScript.writeAll`. -/
def WScript.writeCalls (bs : List UInt8) : WScript → Nat
  | [] => if bs = [] then 0 else 1
  | ev :: s =>
    if bs = [] then 0
    else match ev with
      | .interrupted => 1 + writeCalls bs s
      | .fail _ => 1
      | .accept 0 => 1
      | .accept (n + 1) => 1 + writeCalls (bs.drop (n + 1)) s

/-- The number of calls of `write` an encoder makes on a writer; it stops at the first error
(`?` throughout dlhn/src/ser.rs and dlhn/src/header/ser.rs). -/
def WProg.writeCalls {ε : Type} : WProg ε → WScript → Nat
  | .done _, _ => 0
  | .writeAll bs _ k, s =>
    WScript.writeCalls bs s + match WScript.writeAll bs s with
      | (_, some _, _) => 0
      | (_, none, s') => k.writeCalls s'

/-- The same for implementations that may go on after an error. -/
def WCode.writeCalls : WCode → WScript → Nat
  | .done _, _ => 0
  | .writeAll bs k, s =>
    WScript.writeCalls bs s + match WScript.writeAll bs s with
      | (_, r, s') => (k r).writeCalls s'

end Dlhn
