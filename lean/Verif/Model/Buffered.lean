import Verif.Model.Reader
import Verif.Model.Writer
/-!
# Buffered readers and writers

std's `BufWriter` and `BufReader` around an arbitrary writer or reader, as used with
`Serializer::new(&mut writer)`, dlhn/src/ser.rs:40-44, and `Deserializer::new(&mut
reader)`, dlhn/src/de.rs:53-57. Neither the serializer nor the deserializer calls
anything but `write_all`, `read_exact` and `take(..).read_to_string`: nothing in
dlhn/src flushes.
-/
namespace Dlhn

/-! ## `std::io::BufWriter` -/

/-- A `BufWriter`: the bytes it holds back, what the writer behind it is going to do,
and the bytes that writer has accepted. -/
structure BufW where
  buf : List UInt8
  rest : WScript
  sink : List UInt8
  deriving DecidableEq, Repr

/-- `BufWriter::new(w)`. -/
def BufW.new (s : WScript) : BufW := ⟨[], s, []⟩

/-- `BufWriter::flush_buf`: hand over what is held back; on an error keep what was not
accepted. Called by `flush` (before flushing the writer behind, which is not
modelled), by `into_inner`, and by `drop`, which ignores the error. -/
def BufW.flushBuf (b : BufW) : Option IoErr × BufW :=
  let r := WScript.writeAll b.buf b.rest
  (r.2.1, ⟨b.buf.drop r.1.length, r.2.2, b.sink ++ r.1⟩)

/-- The end of `BufWriter::write_all_cold`: what does not fit even into the empty
buffer goes to the writer behind directly. -/
def BufW.writeCold (cap : Nat) (b : BufW) (bs : List UInt8) : Option IoErr × BufW :=
  if cap ≤ bs.length then
    let r := WScript.writeAll bs b.rest
    (r.2.1, ⟨b.buf, r.2.2, b.sink ++ r.1⟩)
  else (none, { b with buf := b.buf ++ bs })

/-- `BufWriter::write_all` with a buffer of `cap` bytes. -/
def BufW.writeAll (cap : Nat) (b : BufW) (bs : List UInt8) : Option IoErr × BufW :=
  if bs.length < cap - b.buf.length then (none, { b with buf := b.buf ++ bs })
  else if cap - b.buf.length < bs.length then
    match b.flushBuf with
    | (some e, b') => (some e, b')
    | (none, b') => b'.writeCold cap bs
  else b.writeCold cap bs

/-- Run an encoder on a `BufWriter`. -/
def WProg.runBuf {ε : Type} (cap : Nat) : WProg ε → BufW → Outcome ε Unit × BufW
  | .done o, b => (o, b)
  | .writeAll bs onErr k, b =>
    match b.writeAll cap bs with
    | (some e, b') => (.err (onErr e), b')
    | (none, b') => runBuf cap k b'

/-- Flush again and again until the buffer is empty or `n` attempts have been made,
as a caller that retries would; the last attempt may be that of `drop`. -/
def BufW.flushes : Nat → BufW → BufW
  | 0, b => b
  | n + 1, b => flushes n b.flushBuf.2

/-! ## `std::io::BufReader` -/

/-- A `BufReader`: the bytes read ahead, and what the reader behind it is going to
do. -/
structure BufR where
  buf : List UInt8
  rest : Script
  deriving DecidableEq, Repr

/-- `BufReader::new(r)`. -/
def BufR.new (s : Script) : BufR := ⟨[], s⟩

/-- `BufReader::read(&mut buf[..m])` with a buffer of `cap` bytes: a request at least
as large as the buffer bypasses it when it is empty; otherwise the buffer is
filled with one `read` when empty, and as much as possible is taken from it. -/
def BufR.read (cap m : Nat) (b : BufR) : ReadRes × BufR :=
  if b.buf = [] then
    if cap ≤ m then
      let r := Script.read m b.rest
      (r.1, ⟨[], r.2⟩)
    else
      match Script.read cap b.rest with
      | (.ok bs, s) => (.ok (bs.take m), ⟨bs.drop m, s⟩)
      | (.interrupted, s) => (.interrupted, ⟨[], s⟩)
      | (.fail e, s) => (.fail e, ⟨[], s⟩)
  else (.ok (b.buf.take m), ⟨b.buf.drop m, b.rest⟩)

/-- Every read call with a non-empty buffer makes this smaller. -/
def BufR.weight (b : BufR) : Nat := b.buf.length + b.rest.weight

theorem Script.read_weight_len {m : Nat} (hm : 0 < m) (s : Script) (hs : s ≠ []) :
    match Script.read m s with
    | (.ok bs, s') => bs.length + Script.weight s' ≤ Script.weight s ∧
        (bs = [] → Script.weight s' < Script.weight s)
    | (_, s') => Script.weight s' < Script.weight s := by
  cases s with
  | nil => exact absurd rfl hs
  | cons e s =>
    cases e with
    | interrupted => simp [Script.read, Script.weight]
    | fail e => simp [Script.read, Script.weight]
    | data c =>
      simp only [Script.read]
      by_cases h : c.length ≤ m
      · simp only [if_pos h, Script.weight]; omega
      · simp only [if_neg h, Script.weight, List.length_take, List.length_drop]
        refine ⟨by omega, fun hx => ?_⟩
        rw [List.take_eq_nil_iff] at hx
        rcases hx with hx | hx
        · omega
        · simp [hx] at h

theorem BufR.read_weight {cap m : Nat} (hm : 0 < m) (b : BufR) (hb : b ≠ ⟨[], []⟩) :
    BufR.weight (BufR.read cap m b).2 < BufR.weight b := by
  obtain ⟨buf, s⟩ := b
  by_cases h : buf = []
  · subst h
    have hs : s ≠ [] := fun h => hb (by rw [h])
    by_cases hc : cap ≤ m
    · have := Script.read_weight hm s hs
      simpa [BufR.read, hc, BufR.weight] using this
    · have hl := Script.read_weight_len (m := cap) (by omega) s hs
      simp only [BufR.read, hc, if_false, if_true]
      cases hr : Script.read cap s with
      | mk r s' =>
        rw [hr] at hl
        cases r with
        | ok bs =>
          simp only [BufR.weight, List.length_drop, List.length_nil] at hl ⊢
          by_cases h0 : bs = []
          · have := hl.2 h0; simp [h0]; omega
          · have : 0 < bs.length := List.length_pos_iff.mpr h0
            omega
        | interrupted => simpa [BufR.weight] using hl
        | fail e => simpa [BufR.weight] using hl
  · have : 0 < buf.length := List.length_pos_iff.mpr h
    simp only [BufR.read, h, if_false, BufR.weight, List.length_drop]
    omega

/-- Result of a composite call on a `BufReader`. -/
inductive BufResult where
  | ok (bs : List UInt8) (b : BufR)
  | err (e : IoErr)

/-- `BufReader::read_exact`: `std::io::default_read_exact`, with the same result when
everything is in the buffer. -/
def BufR.readExact (cap n : Nat) (acc : List UInt8) (b : BufR) : BufResult :=
  if hn : n = 0 then .ok acc b
  else if hb : b = ⟨[], []⟩ then .err .unexpectedEof
  else
    have _hlt := BufR.read_weight (cap := cap) (Nat.pos_of_ne_zero hn) b hb
    match _h : BufR.read cap n b with
    | (.ok bs, b') =>
      if bs = [] then .err .unexpectedEof else BufR.readExact cap (n - bs.length) (acc ++ bs) b'
    | (.interrupted, b') => BufR.readExact cap n acc b'
    | (.fail e, _) => .err e
termination_by BufR.weight b
decreasing_by all_goals (rw [_h] at _hlt; exact _hlt)

/-- `Take::read_to_end` over a `BufReader`; see `Script.takeToEnd`. -/
def BufR.takeToEnd (cap : Nat) (size : Nat → Nat) (i : Nat) (n : Nat) (acc : List UInt8)
    (b : BufR) : BufResult :=
  if hn : n = 0 then .ok acc b
  else if hb : b = ⟨[], []⟩ then .ok acc b
  else
    have _hlt := BufR.read_weight (cap := cap) (m := min n (size i + 1)) (by omega) b hb
    match _h : BufR.read cap (min n (size i + 1)) b with
    | (.ok bs, b') =>
      if bs = [] then .ok acc b'
      else BufR.takeToEnd cap size (i + 1) (n - bs.length) (acc ++ bs) b'
    | (.interrupted, b') => BufR.takeToEnd cap size (i + 1) n acc b'
    | (.fail e, _) => .err e
termination_by BufR.weight b
decreasing_by all_goals (rw [_h] at _hlt; exact _hlt)

/-- Run a decoder on a `BufReader`. -/
def Prog.runBuf {ε α : Type} (t : Target) (cap : Nat) (size : Nat → Nat) :
    Prog ε α → BufR → Outcome ε (α × BufR)
  | .done (.ok a), b => .ok (a, b)
  | .done (.err e), _ => .err e
  | .done (.panic p), _ => .panic p
  | .readExact n onErr k, b =>
    match BufR.readExact cap n [] b with
    | .ok bs b' =>
      if h : n = bs.length then runBuf t cap size (k (h ▸ ⟨bs.toArray, rfl⟩)) b'
      else .err (onErr .unexpectedEof) -- unreachable: the loop fills the buffer
    | .err e => .err (onErr e)
  | .takeToEnd n onErr k, b =>
    match BufR.takeToEnd cap size 0 n [] b with
    | .ok bs b' => runBuf t cap size (k bs) b'
    | .err e => .err (onErr e)
  | .alloc n k, b =>
    match t.allocate n with
    | some p => .panic p
    | none => runBuf t cap size k b

end Dlhn
