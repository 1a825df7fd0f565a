import Verif.Model.SerImpl
import Verif.Model.Visit
/-!
# A type with two forms: `std::net::Ipv4Addr`

serde (not part of /repo) serializes such types as text to human-readable formats and
in a compact form to others. The implementations below are transcribed from serde's
`impl Serialize for net::Ipv4Addr`, `impl Deserialize for net::Ipv4Addr` and the
implementations for arrays they use.
-/
namespace Dlhn

/-- The four octets. -/
structure Ipv4 where
  a : UInt8
  b : UInt8
  c : UInt8
  d : UInt8
  deriving DecidableEq, Repr

/-- Dotted decimal notation. -/
def Ipv4.text (ip : Ipv4) : String :=
  toString ip.a.toNat ++ "." ++ toString ip.b.toNat ++ "." ++ toString ip.c.toNat ++ "." ++
    toString ip.d.toNat

/-- serde's `impl Serialize for net::Ipv4Addr`: `serialize_str` of the text for
human-readable serializers, else `self.octets().serialize(serializer)`, a tuple of
four bytes. -/
def Ipv4.serImpl (ip : Ipv4) : SerImpl :=
  .humanReadable fun
    | true => .str ip.text
    | false => implOfVal (.tuple [.u8 ip.a, .u8 ip.b, .u8 ip.c, .u8 ip.d])

/-- serde's `impl Deserialize for net::Ipv4Addr`: `deserialize_str` for human-readable
deserializers, else `<[u8; 4]>::deserialize(deserializer)`. -/
def Ipv4.deImpl : Impl Ipv4 :=
  .humanReadable fun
    | true => .str
    | false => .tuple 4 fun _ =>
      .next .u8 fun
      | none => .error (.message "invalid length 0, expected an array of length 4")
      | some a => .next .u8 fun
      | none => .error (.message "invalid length 1, expected an array of length 4")
      | some b => .next .u8 fun
      | none => .error (.message "invalid length 2, expected an array of length 4")
      | some c => .next .u8 fun
      | none => .error (.message "invalid length 3, expected an array of length 4")
      | some d => .ok ⟨a, b, c, d⟩

/-- `serializer.collect_map(entries)`, which the implementations for maps use: a map
of `Some(entries.len())` entries. -/
def collectMapSer (entries : List (SerImpl × SerImpl)) : SerImpl :=
  .map (some entries.length) (go entries)
where
  /-- `serializer.serialize_entry(&key, &value)?` for each, then `end()`. -/
  go : List (SerImpl × SerImpl) → MapSer
    | [] => .finish
    | (k, v) :: es => .key k fun
      | none => .value v fun
        | none => go es
        | some e => .error e
      | some e => .error e

end Dlhn
