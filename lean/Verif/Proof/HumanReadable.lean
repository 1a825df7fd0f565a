import Verif.Model.HumanReadable
import Verif.Spec.Wire
/-! # The text of an IPv4 address -/
namespace Dlhn
open Spec

/-- The decimal digits of a byte. -/
def octetText (n : Nat) : List UInt8 :=
  if n < 10 then [UInt8.ofNat (48 + n)]
  else if n < 100 then [UInt8.ofNat (48 + n / 10), UInt8.ofNat (48 + n % 10)]
  else [UInt8.ofNat (48 + n / 100), UInt8.ofNat (48 + n / 10 % 10), UInt8.ofNat (48 + n % 10)]

theorem utf8_octet_fin : ∀ n : Fin 256, utf8 (toString n.val) = octetText n.val := by
  decide +kernel

theorem utf8_octet (a : UInt8) : utf8 (toString a.toNat) = octetText a.toNat :=
  utf8_octet_fin ⟨a.toNat, a.toNat_lt⟩

theorem utf8_append (s r : String) : utf8 (s ++ r) = utf8 s ++ utf8 r := by
  simp [utf8, String.toByteArray_append]

theorem utf8_dot : utf8 "." = [46] := by decide +kernel

theorem utf8_text (ip : Ipv4) : utf8 ip.text
    = octetText ip.a.toNat ++ 46 :: (octetText ip.b.toNat ++ 46 :: (octetText ip.c.toNat
      ++ 46 :: octetText ip.d.toNat)) := by
  simp only [Ipv4.text, utf8_append, utf8_octet, utf8_dot, List.append_assoc, List.nil_append,
    List.cons_append]

theorem octetText_length (n : Nat) : 1 ≤ (octetText n).length ∧ (octetText n).length ≤ 3 := by
  unfold octetText; split <;> (try split) <;> simp

theorem text_length (ip : Ipv4) : 7 ≤ (utf8 ip.text).length ∧ (utf8 ip.text).length ≤ 15 := by
  have h1 := octetText_length ip.a.toNat
  have h2 := octetText_length ip.b.toNat
  have h3 := octetText_length ip.c.toNat
  have h4 := octetText_length ip.d.toNat
  rw [utf8_text]
  simp only [List.length_append, List.length_cons]
  omega

theorem getD_left {l : List UInt8} (r : List UInt8) {i : Nat} (h : i < l.length) :
    (l ++ r).getD i 0 = l.getD i 0 := by
  simp only [List.getD_eq_getElem?_getD]
  rw [List.getElem?_append_left h]

/-- The octets a reader makes of the length and the first three characters, if they
are those of an address that starts with `n`. -/
theorem only_address_fin : ∀ n : Fin 256,
    let b := (octetText n.val).getD 0 0
    let l := octetText n.val ++ 46 :: octetText b.toNat
    let c := l.getD 1 0
    let d := l.getD 2 0
    (octetText n.val ++ 46 :: (octetText b.toNat ++ 46 :: (octetText c.toNat
      ++ 46 :: octetText d.toNat))).length = n.val →
    n.val = 11 ∧ b = 49 ∧ c = 49 ∧ d = 46 := by decide +kernel

theorem only_address (ip : Ipv4) (h : ip = ⟨UInt8.ofNat (utf8 ip.text).length,
    (utf8 ip.text).getD 0 0, (utf8 ip.text).getD 1 0, (utf8 ip.text).getD 2 0⟩) :
    ip = ⟨11, 49, 49, 46⟩ := by
  have hl := text_length ip
  have ha : ip.a.toNat = (utf8 ip.text).length := by
    have := congrArg (fun i => i.a.toNat) h
    dsimp only at this
    rw [this, UInt8.toNat_ofNat']
    omega
  have hb := congrArg Ipv4.b h
  have hc := congrArg Ipv4.c h
  have hd := congrArg Ipv4.d h
  dsimp only at hb hc hd
  rw [utf8_text] at hb hc hd
  have ha' := ha
  rw [utf8_text] at ha'
  have h1 := octetText_length ip.a.toNat
  have h2 := octetText_length ip.b.toNat
  have key := only_address_fin ⟨ip.a.toNat, ip.a.toNat_lt⟩
  dsimp only at key
  rw [getD_left _ (by omega)] at hb
  rw [← List.cons_append, ← List.append_assoc,
    getD_left _ (by simp only [List.length_append, List.length_cons]; omega)] at hc hd
  rw [← hb, ← hc, ← hd] at key
  obtain ⟨k1, k2, k3, k4⟩ := key ha'.symm
  obtain ⟨a, b, c, d⟩ := ip
  simp only at k1 k2 k3 k4
  subst k2 k3 k4
  congr
  exact UInt8.toNat_inj.mp k1

end Dlhn
