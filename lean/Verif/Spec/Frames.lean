import Verif.Model.Ser
/-!
# Specification: values inside byte buffers
-/
namespace Dlhn.Spec

/-- The bytes of a buffer in the stream: it is serialized as bytes (`serde_bytes::ByteBuf`). -/
def framed (bs : List UInt8) : List UInt8 := (Ser.toVec (.bytes bs)).1

end Dlhn.Spec
