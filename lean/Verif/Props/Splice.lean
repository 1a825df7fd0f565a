import Verif.Proof.Splice
import Verif.Props.Typed
import Verif.Props.Body
/-!
# C142: parts of an encoding

`Place T v U u put` and `BodyPlace` (Spec/Splice.lean): `u` is somewhere inside `v`, and `put x` is
`v` with `x` there instead.
-/
namespace Dlhn.Props

open Spec De
open Derive (BodyOk)

theorem supported_bytes {t : Target} {ty : Ty} (hs : Supported ty) {v : Val} (hv : Has t ty v) :
    Ser.toVec v = (wire v, .ok ()) :=
  have h := has_ok t ty hs v hv
  Ser.exec_ser v h.1 h.2

/-! ## C142 -/

/-- The bytes of a part are a piece of the bytes of the value: they can be decoded from there, and
when they are replaced by the bytes of another value of the type - shorter or longer - the result
is the bytes of the value with this part, nothing else changed. -/
theorem C142_replace (t : Target) (hm : 4096 ≤ t.memLimit) (T U : Ty) (hs : Supported T) (v u : Val)
    (hv : Has t T v) (put : Val → Val) (h : Place T v U u put) :
    ∃ pre post, Ser.toVec v = (pre ++ (Ser.toVec u).1 ++ post, .ok ()) ∧
      (∀ rest, Prog.run t (de t U) ((Ser.toVec u).1 ++ post ++ rest) = .ok (u, post ++ rest)) ∧
      ∀ x, Has t U x → Ser.toVec (put x) = (pre ++ (Ser.toVec x).1 ++ post, .ok ()) ∧
        ∀ rest, Prog.run t (de t T) (pre ++ (Ser.toVec x).1 ++ post ++ rest) = .ok (put x, rest) := by
  obtain ⟨hu, hp⟩ := h.has hs hv
  have hsU := h.supported hs
  obtain ⟨e, pre, post, hw⟩ := h.around
  have hx : ∀ x, Has t U x → Ser.toVec (put x) = (pre ++ (Ser.toVec x).1 ++ post, .ok ()) :=
    fun x hx => by rw [supported_bytes hs (hp x hx), supported_bytes hsU hx, hw]
  refine ⟨pre, post, ?_, fun rest => ?_, fun x hX => ⟨hx x hX, fun rest => ?_⟩⟩
  · rw [← hx u hu, e]
  · obtain ⟨enc, h1, h2⟩ := C07_roundtrip t hm U hsU u hu
    rw [h1, List.append_assoc]
    exact h2 _
  · obtain ⟨enc, h1, h2⟩ := C07_roundtrip t hm T hs (put x) (hp x hX)
    rw [hx x hX] at h1
    cases h1
    exact h2 rest

/-- Where the part is: behind what is read as the parts before it. (A struct is read like the tuple
of its fields, C22.) -/
theorem C142_find (t : Target) (hm : 4096 ≤ t.memLimit) (Ts Us : List Ty) (T : Ty)
    (hs : Supported (.tuple (Ts ++ T :: Us))) (vs ws : List Val) (v : Val)
    (h1 : Has t (.tuple Ts) (.tuple vs)) (h2 : Has t T v) (h3 : Has t (.tuple Us) (.tuple ws))
    (rest : List UInt8) :
    Prog.run t (de t (.tuple Ts)) ((Ser.toVec (.tuple (vs ++ v :: ws))).1 ++ rest)
      = .ok (.tuple vs, (Ser.toVec v).1 ++ (Ser.toVec (.tuple ws)).1 ++ rest) := by
  rw [Supported] at hs
  have hsp : ∀ Ts Us : List Ty, AllSupported (Ts ++ Us) → AllSupported Ts ∧ AllSupported Us := by
    intro Ts Us h
    induction Ts with
    | nil => exact ⟨by simp [AllSupported], h⟩
    | cons T Ts ih =>
      rw [List.cons_append, AllSupported] at h
      rw [AllSupported]
      exact ⟨⟨h.1, (ih h.2).1⟩, (ih h.2).2⟩
  obtain ⟨s1, s2⟩ := hsp _ _ hs
  rw [AllSupported] at s2
  have e1 := has_ok t (.tuple Ts) (by rw [Supported]; exact s1) _ h1
  have e2 := has_ok t T s2.1 _ h2
  have e3 := has_ok t (.tuple Us) (by rw [Supported]; exact s2.2) _ h3
  have ha : ∀ vs ws, AllSerializable vs → AllSerializable ws → AllSerializable (vs ++ ws) := by
    intro vs ws h h'
    induction vs with
    | nil => exact h'
    | cons v vs ih => rw [AllSerializable] at h; rw [List.cons_append, AllSerializable]; exact ⟨h.1, ih h.2⟩
  have hf : ∀ vs ws, AllFit vs → AllFit ws → AllFit (vs ++ ws) := by
    intro vs ws h h'
    induction vs with
    | nil => exact h'
    | cons v vs ih => rw [AllFit] at h; rw [List.cons_append, AllFit]; exact ⟨h.1, ih h.2⟩
  simp only [Serializable, Fits] at e1 e3
  have hb : (Ser.toVec (.tuple (vs ++ v :: ws))).1 = wireAll vs ++ (wire v ++ wireAll ws) := by
    have := Ser.exec_ser (.tuple (vs ++ v :: ws))
      (by rw [Serializable]; exact ha _ _ e1.1 (by rw [AllSerializable]; exact ⟨e2.1, e3.1⟩))
      (by rw [Fits]; exact hf _ _ e1.2 (by rw [AllFit]; exact ⟨e2.2, e3.2⟩))
    rw [Ser.toVec, this, wire, wireAll_append, wireAll]
  obtain ⟨enc, g1, g2⟩ := C07_roundtrip t hm (.tuple Ts) (by rw [Supported]; exact s1) _ h1
  rw [supported_bytes (by rw [Supported]; exact s1) h1] at g1
  cases g1
  rw [hb, supported_bytes s2.1 h2, supported_bytes (by rw [Supported]; exact s2.2) h3]
  have := g2 ((wire v ++ wireAll ws) ++ rest)
  simpa [wire] using this

/-- A vector is its length, readable as a `u64`, and its elements, readable as a tuple. -/
theorem C142_vector (t : Target) (T : Ty) (hs : Supported T) (vs : List Val)
    (h : Has t (.seq T) (.seq (some vs.length) vs)) :
    Ser.toVec (.seq (some vs.length) vs) =
      ((Ser.toVec (.u64 (.ofNat vs.length))).1 ++ (Ser.toVec (.tuple vs)).1, .ok ()) := by
  have hx := supported_bytes (ty := .seq T) (by rwa [Supported]) h
  have hl : vs.length < 2 ^ 64 := by
    have := (has_ok t (.seq T) (by rwa [Supported]) _ h).2
    rw [Fits] at this
    exact this.1 _ rfl
  have h1 : Ser.toVec (.u64 (.ofNat vs.length)) = (varint 64 vs.length, .ok ()) := by
    have := supported_bytes (t := t) (ty := .u64) (by simp [Supported])
      (v := .u64 (.ofNat vs.length)) (by simp [Has])
    rw [this, wire]
    congr 2
    simp [Nat.mod_eq_of_lt hl]
  have h2 : Ser.toVec (.tuple vs) = (wireAll vs, .ok ()) := by
    have hk := has_ok t (.seq T) (by rwa [Supported]) _ h
    rw [Serializable, Fits] at hk
    have := Ser.exec_ser (.tuple vs) (by rw [Serializable]; exact hk.1) (by rw [Fits]; exact hk.2.2)
    rw [Ser.toVec, this, wire]
  rw [hx, h1, h2, wire, lengthPrefix]

/-- Appending to a stored vector changes its length and nothing else in the bytes before. -/
theorem C142_append (t : Target) (hm : 4096 ≤ t.memLimit) (T : Ty) (hs : Supported T)
    (vs ws : List Val) (hv : ∀ v ∈ vs ++ ws, Has t T v)
    (hl : (vs ++ ws).length < 2 ^ t.ptr.bits) (rest : List UInt8) :
    Prog.run t (de t (.seq T)) ((Ser.toVec (.u64 (.ofNat (vs ++ ws).length))).1 ++
        ((Ser.toVec (.seq (some vs.length) vs)).1.drop
          (Ser.toVec (.u64 (.ofNat vs.length))).1.length) ++
        ((Ser.toVec (.seq (some ws.length) ws)).1.drop
          (Ser.toVec (.u64 (.ofNat ws.length))).1.length) ++ rest)
      = .ok (.seq (some (vs ++ ws).length) (vs ++ ws), rest) := by
  have hl' := hl
  rw [List.length_append] at hl'
  have has : Has t (.seq T) (.seq (some (vs ++ ws).length) (vs ++ ws)) := by
    rw [Has]; exact ⟨_, rfl, hl, hv⟩
  have h1 : Has t (.seq T) (.seq (some vs.length) vs) := by
    rw [Has]; exact ⟨_, rfl, by omega, fun v h => hv v (by simp [h])⟩
  have h2 : Has t (.seq T) (.seq (some ws.length) ws) := by
    rw [Has]; exact ⟨_, rfl, by omega, fun v h => hv v (by simp [h])⟩
  have hsq : Supported (.seq T) := by rwa [Supported]
  obtain ⟨enc, g1, g2⟩ := C07_roundtrip t hm (.seq T) hsq _ has
  have hj : (Ser.toVec (.tuple (vs ++ ws))).1 = (Ser.toVec (.tuple vs)).1 ++ (Ser.toVec (.tuple ws)).1 := by
    have tup : ∀ us, Has t (.seq T) (.seq (some us.length) us) → Ser.toVec (.tuple us) = (wireAll us, .ok ()) := by
      intro us h
      have hk := has_ok t (.seq T) hsq _ h
      rw [Serializable, Fits] at hk
      have := Ser.exec_ser (.tuple us) (by rw [Serializable]; exact hk.1) (by rw [Fits]; exact hk.2.2)
      rw [Ser.toVec, this, wire]
    rw [tup _ has, tup _ h1, tup _ h2, wireAll_append]
  rw [C142_vector t T hs _ has] at g1
  cases g1
  rw [C142_vector t T hs _ h1, C142_vector t T hs _ h2]
  simp only [List.drop_left]
  have := g2 rest
  rw [hj] at this
  simpa using this

/-- Dynamic values. -/
theorem C142_dynamic (t : Target) (hm : 4096 ≤ t.memLimit) (mode : BuildMode) (size : Nat)
    (h g : Header) (b c : Body) (hv : Body.validate h b = true) (he : Exists t b)
    (hc : CleanDecimals b) (hd : DatesFit mode b) (put : Body → Body) (hp : BodyPlace h b g c put) :
    ∃ pre post, Body.toVec mode b = (pre ++ (Body.toVec mode c).1 ++ post, .ok ()) ∧
      (VectorsFit t size c → ∀ rest, Prog.run t (Body.de t mode size g)
        ((Body.toVec mode c).1 ++ post ++ rest) = .ok (c, post ++ rest)) ∧
      ∀ x, Body.validate g x = true → Exists t x → CleanDecimals x → DatesFit mode x →
        Body.validate h (put x) = true ∧
        Body.toVec mode (put x) = (pre ++ (Body.toVec mode x).1 ++ post, .ok ()) ∧
        (VectorsFit t size (put x) → ∀ rest,
          Prog.run t (Body.de t mode size h) (pre ++ (Body.toVec mode x).1 ++ post ++ rest)
            = .ok (put x, rest)) := by
  obtain ⟨e, pre, post, hw⟩ := hp.around
  obtain ⟨h1, h2⟩ := hp.conforms ((Body.validate_iff h b).mp hv)
  have ok : BodyOk t mode False False b := ⟨he, hc, hd, fun h => h.elim, fun h => h.elim⟩
  have okc : BodyOk t mode False False c := ok.mono hp.parts
  have bytes : ∀ x, BodyOk t mode False False x → Body.toVec mode x = (bodyWire x, .ok ()) :=
    fun x hx => C35_encoding t mode x hx.exist hx.dates
  refine ⟨pre, post, ?_, fun hf rest => ?_, fun x x1 x2 x3 x4 => ?_⟩
  · rw [bytes b ok, bytes c okc, ← hw, e]
  · obtain ⟨enc, g1, g2⟩ := C35_roundtrip t hm mode size g c ((Body.validate_iff g c).mpr h1) okc.exist
      okc.clean okc.dates hf
    rw [g1, List.append_assoc]
    exact g2 _
  · have okx : BodyOk t mode False False x := ⟨x2, x3, x4, fun h => h.elim, fun h => h.elim⟩
    have okp := hp.ok ok x okx
    have hvp := (Body.validate_iff h (put x)).mpr (h2 x ((Body.validate_iff g x).mp x1))
    refine ⟨hvp, by rw [bytes _ okp, bytes x okx, hw], fun hf rest => ?_⟩
    obtain ⟨enc, g1, g2⟩ := C35_roundtrip t hm mode size h (put x) hvp okp.exist okp.clean okp.dates hf
    rw [bytes _ okp, hw] at g1
    cases g1
    rw [bytes x okx]
    exact g2 rest

/-- Text is counted in bytes, so that its bytes are not parts in this sense: a longer text in their
place is not read. -/
theorem C142_text : (Ser.toVec (.tuple [.str "ab", .u8 7])).1 = [2, 97, 98, 7] ∧
    ∀ t : Target, 4096 ≤ t.memLimit →
      Prog.run t (de t (.tuple [.string, .u8])) [2, 97, 98, 99, 7] =
        .ok (.tuple [.str "ab", .u8 99], [7]) := by
  refine ⟨by decide +kernel, fun t hm => ?_⟩
  have h : Has t (.tuple [.string, .u8]) (.tuple [.str "ab", .u8 99]) := by
    have : (utf8 "ab").length < 2 ^ t.ptr.bits := by
      rw [show (utf8 "ab").length = 2 by decide]; cases t.ptr <;> decide
    simp only [Has, HasAll]
    exact ⟨_, rfl, _, _, rfl, ⟨_, rfl, this⟩, _, _, rfl, ⟨_, rfl⟩, rfl⟩
  obtain ⟨enc, h1, h2⟩ := C07_roundtrip t hm _ (by simp [Supported, AllSupported]) _ h
  rw [show Ser.toVec (.tuple [.str "ab", .u8 99]) = ([2, 97, 98, 99], .ok ()) by decide +kernel] at h1
  cases h1
  exact h2 [7]

/-! Examples: a field of a struct in a vector, and a variant. -/

example : Place (.seq (.struct "P" [("x", .u16), ("name", .string)]))
    (.seq (some 2) [.struct "P" [("x", .u16 1), ("name", .str "a")],
      .struct "P" [("x", .u16 300), ("name", .str "b")]])
    .string (.str "b") fun s => .seq (some 2) [.struct "P" [("x", .u16 1), ("name", .str "a")],
      .struct "P" [("x", .u16 300), ("name", s)]] :=
  .element _ [.struct "P" [("x", .u16 1), ("name", .str "a")]] []
    (.field "P" "name" [("x", .u16), ("name", .string)] [("x", .u16 300)] [] rfl (.here _ _))

example : BodyPlace (.tuple [.uint8, .enum [.unit, .optional .string]])
    (.tuple [.uint8 1, .enum 1 (.some (.string "a"))]) .string (.string "a")
    fun x => .tuple [.uint8 1, .enum 1 (.some x)] :=
  .member _ [.uint8 1] [] rfl (.variant 1 _ rfl (.some (.here _ _)))

example (t : Target) (hm : 4096 ≤ t.memLimit) :
    ∃ pre post, Ser.toVec (.tuple [.u8 1, .some (.u16 300), .u8 2]) =
        (pre ++ (Ser.toVec (.u16 300)).1 ++ post, .ok ()) ∧
      ∀ x, Prog.run t (de t (.tuple [.u8, .option .u16, .u8]))
        (pre ++ (Ser.toVec (.u16 x)).1 ++ post ++ []) =
          .ok (.tuple [.u8 1, .some (.u16 x), .u8 2], []) := by
  obtain ⟨pre, post, h1, -, h3⟩ := C142_replace t hm (.tuple [.u8, .option .u16, .u8]) .u16
    (by simp [Supported, AllSupported]) (.tuple [.u8 1, .some (.u16 300), .u8 2]) (.u16 300)
    (by simp only [Has, HasAll]; exact ⟨_, rfl, _, _, rfl, ⟨_, rfl⟩, _, _, rfl, .inr ⟨_, rfl, _, rfl⟩, _, _,
      rfl, ⟨_, rfl⟩, rfl⟩) _ (.member _ [.u8 1] [.u8 2] rfl (.some (.here _ _)))
  exact ⟨pre, post, h1, fun x => (h3 (.u16 x) (by simp [Has])).2 []⟩

end Dlhn.Props
