import Verif.Proof.Cost
import Verif.Proof.Size
import Verif.Proof.BodyGen
import Verif.Proof.DeriveYield
import Verif.Props.Visit
import Verif.Props.Body
/-!
# C92-C94: what decoding costs

Reader calls, memory requested, and the size of what is returned, against the
number of bytes of the input. `Prog.calls`, `valParts`, `tyParts`, `Dense`,
`bodySize` and `DenseHeader` are in Spec/Cost.lean.
-/
namespace Dlhn.Props

open Spec De

/-! ## C92 reader calls -/

/-- A run of a typed decoder makes at most two reader calls per byte it consumes if
it succeeds, and at most two per byte there is and one more if it does not. -/
theorem C92_typed (t : Target) (ty : Ty) (fin : Ending) (bs : List UInt8) :
    Prog.calls t fin (De.de t ty) bs ≤ 2 * bs.length + 1 ∧
      ∀ v rest, Prog.exec t fin (De.de t ty) bs = .ok (v, rest) →
        Prog.calls t fin (De.de t ty) bs ≤ 2 * (bs.length - rest.length) := by
  have h := (closed_de (closed_pays t) ty (.inr trivial)).calls t fin bs
  refine ⟨h.1, fun v rest hx => ?_⟩
  have := h.2 v rest hx
  omega

/-- The same for every hand-written `Deserialize` implementation. -/
theorem C92_impl (t : Target) {α : Type} (i : Impl α) (fin : Ending) (bs : List UInt8) :
    Prog.calls t fin (i.run t) bs ≤ 2 * bs.length + 1 ∧
      ∀ a rest, Prog.exec t fin (i.run t) bs = .ok (a, rest) →
        Prog.calls t fin (i.run t) bs ≤ 2 * (bs.length - rest.length) := by
  have h := (closed_impl (closed_pays t) i (.inr fun _ => trivial)).calls t fin bs
  refine ⟨h.1, fun v rest hx => ?_⟩
  have := h.2 v rest hx
  omega

/-- The same for derived types. -/
theorem C92_derived (t : Target) (mode : BuildMode) (env : Derive.Env) (T : RTy) (fin : Ending)
    (bs : List UInt8) :
    Prog.calls t fin (Derive.deTy t mode env T) bs ≤ 2 * bs.length + 1 ∧
      ∀ a rest, Prog.exec t fin (Derive.deTy t mode env T) bs = .ok (a, rest) →
        Prog.calls t fin (Derive.deTy t mode env T) bs ≤ 2 * (bs.length - rest.length) := by
  have h := (Derive.closed_deTy (closed_pays t) mode env T
    ⟨fun _ => trivial, fun _ => .inr trivial, fun _ => trivial⟩).calls t fin bs
  refine ⟨h.1, fun v rest hx => ?_⟩
  have := h.2 v rest hx
  omega

/-- The same for recursive types, with any stack. -/
theorem C92_recursive (t : Target) (defs : Rec.Defs) (d : Nat) (n : String) (fin : Ending)
    (bs : List UInt8) :
    Prog.calls t fin (Rec.deNamed t defs d n) bs ≤ 2 * bs.length + 1 ∧
      ∀ a rest, Prog.exec t fin (Rec.deNamed t defs d n) bs = .ok (a, rest) →
        Prog.calls t fin (Rec.deNamed t defs d n) bs ≤ 2 * (bs.length - rest.length) := by
  have hp : ∀ d n, Prog.Pays 0 0 (Rec.deNamed t defs d n) := by
    intro d
    induction d with
    | zero => intro n; rw [Rec.deNamed]; trivial
    | succ d ih =>
      intro n
      rw [Rec.deNamed]
      exact Rec.closed_body (closed_pays t) trivial ih (defs n)
  have h := (hp d n).calls t fin bs
  refine ⟨h.1, fun v rest hx => ?_⟩
  have := h.2 v rest hx
  omega

/-- The same for bodies. -/
theorem C92_body (t : Target) (mode : BuildMode) (size : Nat) (h : Header) (fin : Ending)
    (bs : List UInt8) :
    Prog.calls t fin (Body.de t mode size h) bs ≤ 2 * bs.length + 1 ∧
      ∀ b rest, Prog.exec t fin (Body.de t mode size h) bs = .ok (b, rest) →
        Prog.calls t fin (Body.de t mode size h) bs ≤ 2 * (bs.length - rest.length) := by
  have hp := (Body.closed_body (closed_pays t) mode size (fun _ => True) (fun _ _ _ hk => hk) h
    (fun _ _ _ => trivial) (fun _ _ => trivial) fun _ => .inr trivial).calls t fin bs
  refine ⟨hp.1, fun v rest hx => ?_⟩
  have := hp.2 v rest hx
  omega

/-- The same for headers. -/
theorem C92_header (t : Target) (size d : Nat) (fin : Ending) (bs : List UInt8) :
    Prog.calls t fin (Header.deserialize size d) bs ≤ 2 * bs.length + 1 ∧
      ∀ h rest, Prog.exec t fin (Header.deserialize size d) bs = .ok (h, rest) →
        Prog.calls t fin (Header.deserialize size d) bs ≤ 2 * (bs.length - rest.length) := by
  have hp := (Header.pays_deserialize size d).calls t fin bs
  refine ⟨hp.1, fun v rest hx => ?_⟩
  have := hp.2 v rest hx
  omega

/-- Two calls for one byte occur: an empty string. And one call without any byte: the
attempt to read from an empty input. -/
example (t : Target) (ht : t = ⟨.w64, 4096⟩) :
    Prog.calls t .eof (De.de t .string) [0] = 2 ∧
    Prog.run t (De.de t .string) [0] = .ok (.str "", []) ∧
    Prog.calls t .eof (De.de t .string) [] = 1 ∧
    Prog.calls t .eof (De.de t (.seq .u8)) [3, 1, 2] = 4 := by
  subst ht; exact ⟨rfl, rfl, rfl, rfl⟩

/-! ## C93 memory requested -/

/-- All explicit allocations of a run together: no more than the bytes it consumes if
it succeeds, no more than the bytes there are and 4096 if it does not. -/
theorem C93_typed (t : Target) (ht : t.ptr = .w64) (ty : Ty) (fin : Ending) (bs : List UInt8) :
    (Prog.requests t fin (De.de t ty) bs).sum ≤ bs.length + 4096 ∧
      ∀ v rest, Prog.exec t fin (De.de t ty) bs = .ok (v, rest) →
        (Prog.requests t fin (De.de t ty) bs).sum ≤ bs.length - rest.length := by
  have h := closed_de (closed_thrifty ht) ty (.inr (Prog.NoAlloc.thrifty trivial)) fin bs
  refine ⟨h.1, fun v rest hx => ?_⟩
  have := h.2 v rest hx
  omega

/-- The same for every hand-written `Deserialize` implementation. -/
theorem C93_impl (t : Target) (ht : t.ptr = .w64) {α : Type} (i : Impl α) (fin : Ending)
    (bs : List UInt8) :
    (Prog.requests t fin (i.run t) bs).sum ≤ bs.length + 4096 ∧
      ∀ a rest, Prog.exec t fin (i.run t) bs = .ok (a, rest) →
        (Prog.requests t fin (i.run t) bs).sum ≤ bs.length - rest.length := by
  have h := closed_impl (closed_thrifty ht) i (.inr fun _ => Prog.NoAlloc.thrifty trivial) fin bs
  refine ⟨h.1, fun v rest hx => ?_⟩
  have := h.2 v rest hx
  omega

/-- The same for derived types. -/
theorem C93_derived (t : Target) (ht : t.ptr = .w64) (mode : BuildMode) (env : Derive.Env) (T : RTy)
    (fin : Ending) (bs : List UInt8) :
    (Prog.requests t fin (Derive.deTy t mode env T) bs).sum ≤ bs.length + 4096 ∧
      ∀ a rest, Prog.exec t fin (Derive.deTy t mode env T) bs = .ok (a, rest) →
        (Prog.requests t fin (Derive.deTy t mode env T) bs).sum ≤ bs.length - rest.length := by
  have h := Derive.closed_deTy (closed_thrifty ht) mode env T
    ⟨fun _ => Prog.NoAlloc.thrifty trivial, fun _ => .inr (Prog.NoAlloc.thrifty trivial),
      fun _ => Prog.NoAlloc.thrifty trivial⟩ fin bs
  refine ⟨h.1, fun v rest hx => ?_⟩
  have := h.2 v rest hx
  omega

/-- The same for recursive types, with any stack. -/
theorem C93_recursive (t : Target) (ht : t.ptr = .w64) (defs : Rec.Defs) (d : Nat) (n : String)
    (fin : Ending) (bs : List UInt8) :
    (Prog.requests t fin (Rec.deNamed t defs d n) bs).sum ≤ bs.length + 4096 ∧
      ∀ a rest, Prog.exec t fin (Rec.deNamed t defs d n) bs = .ok (a, rest) →
        (Prog.requests t fin (Rec.deNamed t defs d n) bs).sum ≤ bs.length - rest.length := by
  have hp : ∀ d n, Prog.Thrifty t (Rec.deNamed t defs d n) := by
    intro d
    induction d with
    | zero => intro n; rw [Rec.deNamed]; exact Prog.NoAlloc.thrifty trivial
    | succ d ih =>
      intro n
      rw [Rec.deNamed]
      exact Rec.closed_body (closed_thrifty ht) (Prog.NoAlloc.thrifty trivial) ih (defs n)
  have h := hp d n fin bs
  refine ⟨h.1, fun v rest hx => ?_⟩
  have := h.2 v rest hx
  omega

/-- A list of byte strings: one allocation each, and the 4096 bytes of the one that
is announced but not there. -/
example (t : Target) (ht : t = ⟨.w64, 2 ^ 20⟩) :
    Prog.requests t .eof (De.de t (.seq .byteBuf)) [2, 1, 7, 2, 8, 9] = [1, 2] ∧
    Prog.requests t .eof (De.de t (.seq .byteBuf)) ([2, 1, 7] ++ varint 64 5000) = [1, 4096] := by
  subst ht; exact ⟨rfl, by decide +kernel⟩

/-! ## C94 the size of what is returned -/

/-- A decoded value has at most as many parts as its type has, times the number of
bytes it was read from (and one), unless the type has sequences of elements that
take no space. -/
theorem C94_typed (t : Target) (ty : Ty) (hs : Supported ty) (hd : Dense ty)
    (fin : Ending) (bs rest : List UInt8) (v : Val)
    (hx : Prog.exec t fin (De.de t ty) bs = .ok (v, rest)) :
    valParts v ≤ tyParts ty * (bs.length - rest.length + 1) := by
  obtain ⟨n, hn, hv, hl⟩ := De.yields_de t ⟨.w64, 0⟩ ty hs fin bs v rest hx
  obtain ⟨a, b, hab, hb⟩ := size_bound (t := ⟨.w64, 0⟩) ty hs hd
  have h1 := hb v (hv (.inl rfl))
  have h2 : a * (wire v).length ≤ tyParts ty * (bs.length - rest.length) :=
    Nat.mul_le_mul (by omega) (by omega)
  rw [Nat.mul_add]
  omega

/-- The same of the value alone: its size is bounded by that of its encoding. -/
theorem C94_value (t : Target) (ty : Ty) (hs : Supported ty) (hd : Dense ty) (v : Val)
    (hv : Has t ty v) : valParts v ≤ tyParts ty * ((wire v).length + 1) := by
  obtain ⟨a, b, hab, hb⟩ := size_bound (t := t) ty hs hd
  have h1 := hb v hv
  have h2 : a * (wire v).length ≤ tyParts ty * (wire v).length := Nat.mul_le_mul_right _ (by omega)
  rw [Nat.mul_add]
  omega

/-- The same for bodies and headers. -/
theorem C94_body (t : Target) (mode : BuildMode) (size : Nat) (h : Header)
    (hd : DenseHeader h) (fin : Ending) (bs rest : List UInt8) (b : Body)
    (hx : Prog.exec t fin (Body.de t mode size h) bs = .ok (b, rest)) :
    bodySize b ≤ (headerParts h).length * (bs.length - rest.length + 1) := by
  obtain ⟨n, hn, -, hl⟩ := Body.yields_body (.any t size) mode h fin bs b rest hx
  have hc := Body.returns_conforms t mode size h fin bs b rest hx
  obtain ⟨a, c, hac, hb⟩ := body_bound h hd
  have h1 := hb b hc
  have h2 : a * (bodyWire b).length ≤ (headerParts h).length * (bs.length - rest.length) :=
    Nat.mul_le_mul (by omega) (by omega)
  rw [Nat.mul_add]
  omega

/-- The condition is needed: two bytes decode to 200 units, and nine to any number
(property C61). -/
theorem C94_not_dense (t : Target) (hm : 4096 ≤ t.memLimit) :
    ¬ Dense (.seq .unit) ∧ ∃ v, Prog.run t (De.de t (.seq .unit)) (varint 64 200) = .ok (v, []) ∧
      (varint 64 200).length = 2 ∧ valParts v = 201 := by
  refine ⟨by simp [Dense, Wide], .seq (some 200) (List.replicate 200 .unit), ?_, by decide +kernel, ?_⟩
  · exact (C61_typed_units t hm 200 (by cases t.ptr <;> decide)).2
  · have : ∀ n, valPartsAll (List.replicate n Val.unit) = n := by
      intro n
      induction n with
      | zero => rfl
      | succ n ih => rw [List.replicate_succ, valPartsAll, ih]; simp only [valParts]; omega
    rw [valParts, this]

/-- A type of lists, maps, options and enums is dense; its values reach the bound's
order. -/
example : Dense (.struct "Log" [("tags", .seq .string), ("rows", .seq (.tuple [.unit, .u64])),
      ("last", .option (.map .string (.enum "E" [("A", .unit), ("B", .tuple [.bool, .unit])])))]) ∧
    Supported (.seq (.tuple [.unit, .u8])) ∧ tyParts (.seq (.tuple [.unit, .u8])) = 4 ∧
    valParts (.seq (some 2) [.tuple [.unit, .u8 7], .tuple [.unit, .u8 8]]) = 7 ∧
    DenseHeader (.array (.map (.array .uint8))) := by
  refine ⟨by simp [Dense, Wide, SomeWide, AllDense, FieldsDense, VariantsDense, PayloadDense],
    by simp [Supported, AllSupported], rfl, rfl, ?_⟩
  intro e he
  simp [headerParts] at he
  rcases he with rfl | rfl <;> simp [ZeroWidth]

end Dlhn.Props
