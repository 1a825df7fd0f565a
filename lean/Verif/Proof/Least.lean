import Verif.Spec.Least
import Verif.Proof.DeriveYield
import Verif.Proof.Log
import Verif.Proof.Size
/-!
# Lemmas about the bytes a value is read from
-/
namespace Dlhn

open Prog (Yields)

/-- What is left was there. -/
theorem Prog.Yields.any {ε α : Type} {t : Target} (p : Prog ε α) :
    Prog.Yields t p fun _ _ => True := by
  induction p with
  | done o =>
    cases o with
    | ok a => exact .done_ok trivial
    | err e => exact .done_err
    | panic q => exact .done_panic
  | readExact n onErr k ih => exact .readExact fun v => (ih v).mono fun _ _ _ => trivial
  | takeToEnd n onErr k ih => exact .takeToEnd fun v _ => (ih v).mono fun _ _ _ => trivial
  | alloc n k ih => exact .alloc ih

/-- If the first part takes `m` bytes or more, the whole does. -/
theorem Prog.Yields.atLeast {ε α β : Type} {t : Target} {p : Prog ε α} {f : α → Prog ε β} {m : Nat}
    (hp : Prog.Yields t p fun _ n => m ≤ n) : Prog.Yields t (p.bind f) fun _ n => m ≤ n :=
  hp.bind fun a _ hn => (Prog.Yields.any (f a)).mono fun _ _ _ => by omega

namespace Derive

open Spec hiding variantFields
open De

theorem least_u64 (t : Target) : Yields t deU64 fun _ n => 1 ≤ n :=
  (yields_u64 t).mono fun v n hn => by have := varintLen_pos 64 v.toNat; omega

theorem least_vecU8 (t : Target) : Yields t (deVecU8 t) fun _ n => 1 ≤ n := (least_u64 t).atLeast

theorem least_u16 (t : Target) : Yields t deU16 fun _ n => 1 ≤ n :=
  (yields_u16 t).mono fun v n hn => by have := varintLen_pos 16 v.toNat; omega
theorem least_u32 (t : Target) : Yields t deU32 fun _ n => 1 ≤ n :=
  (yields_u32 t).mono fun v n hn => by have := varintLen_pos 32 v.toNat; omega
theorem least_i16 (t : Target) : Yields t deI16 fun _ n => 1 ≤ n :=
  (Body.yields_i16 t).mono fun v n hn => by have := varint_pos 16 (zigzag v.toInt); omega
theorem least_i32 (t : Target) : Yields t deI32 fun _ n => 1 ≤ n :=
  (Body.yields_i32 t).mono fun v n hn => by have := varint_pos 32 (zigzag v.toInt); omega
theorem least_i64 (t : Target) : Yields t deI64 fun _ n => 1 ≤ n :=
  (Body.yields_i64 t).mono fun v n hn => by have := varint_pos 64 (zigzag v.toInt); omega

theorem two_le_date (d : Date) : 2 ≤ (dateWire d).length := by
  have a := varint_pos 32 (zigzag (d.year - 2000).toInt)
  have b := varint_pos 16 (d.ordinal - 1).toNat
  rw [dateWire, List.length_append]; omega

theorem two_le_dateTime (d : DateTime) : 2 ≤ (dateTimeWire d).length := by
  have a := varint_pos 64 (zigzag d.unixTimestamp.toInt)
  have b := varint_pos 32 d.nanosecond.toNat
  rw [dateTimeWire, List.length_append]; omega

theorem least_offsetDateTime (t : Target) : Yields t Format.deDateTime fun _ n => 2 ≤ n := by
  intro fin bs d rest h
  rw [Format.exec_deDateTime_eq] at h
  cases hx : Prog.exec t fin DateTime.de bs with
  | err e => rw [hx] at h; cases h
  | panic p => rw [hx] at h; cases h
  | ok a =>
    obtain ⟨c, r⟩ := a
    obtain ⟨n, hn, hw⟩ := Body.yields_dateTime t fin bs c r hx
    rw [hx, Prog.next_ok] at h
    cases hc : c.toTime with
    | err e => rw [hc] at h; cases h
    | panic p => rw [hc] at h; cases h
    | ok d' =>
      rw [hc] at h
      cases h
      exact ⟨n, hn, Nat.le_trans (two_le_dateTime c) hw⟩

mutual
theorem least_ty (t : Target) (mode : BuildMode) (env : Env) :
    (T : RTy) → Yields t (deTy t mode env T) fun _ n => leastRead T ≤ n
  | .unit => by rw [deTy]; exact .done_ok (by simp [leastRead])
  | .option T => by rw [deTy]; exact (Body.yields_bool t).atLeast
  | .bool => by rw [deTy]; exact Body.yields_bool t
  | .u8 => by rw [deTy]; exact yields_wrap (yields_read t 1) _ fun _ _ h => by simp [leastRead, h]
  | .u16 => by rw [deTy]; exact least_u16 t
  | .u32 => by rw [deTy]; exact least_u32 t
  | .u64 => by rw [deTy]; exact least_u64 t
  | .i8 => by rw [deTy]; exact yields_wrap (yields_read t 1) _ fun _ _ h => by simp [leastRead, h]
  | .i16 => by rw [deTy]; exact least_i16 t
  | .i32 => by rw [deTy]; exact least_i32 t
  | .i64 => by rw [deTy]; exact least_i64 t
  | .f32 => by rw [deTy]; exact yields_wrap (yields_read t 4) _ fun _ _ h => by simp [leastRead, h]
  | .f64 => by rw [deTy]; exact yields_wrap (yields_read t 8) _ fun _ _ h => by simp [leastRead, h]
  | .bigUint => by rw [deTy]; exact (least_vecU8 t).atLeast
  | .numBigUint => by rw [deTy]; exact (least_vecU8 t).atLeast
  | .bigInt => by rw [deTy]; exact (least_vecU8 t).atLeast
  | .numBigInt => by rw [deTy]; exact (least_vecU8 t).atLeast
  | .bigDecimal => by rw [deTy]; exact (least_vecU8 t).atLeast
  | .numBigDecimal => by rw [deTy]; exact (least_vecU8 t).atLeast
  | .str => by rw [deTy]; exact .done_panic
  | .string => by rw [deTy]; exact (least_u64 t).atLeast
  | .bytes => by rw [deTy]; exact .done_panic
  | .byteBuf => by rw [deTy]; exact (least_u64 t).atLeast
  | .vec T => by rw [deTy]; exact (least_u64 t).atLeast
  | .date => by
    rw [deTy]; exact (Body.yields_date t mode).mono fun d _ hn => Nat.le_trans (two_le_date d) hn.1
  | .timeDate => by
    rw [deTy]; exact (yields_timeDate t mode).mono fun _ _ hn => Nat.le_trans (two_le_date _) hn.1
  | .dateTime => by
    rw [deTy]; exact (Body.yields_dateTime t).mono fun d _ hn => Nat.le_trans (two_le_dateTime d) hn
  | .offsetDateTime => by rw [deTy]; exact least_offsetDateTime t
  | .btreeMap T => by rw [deTy]; exact (least_u64 t).atLeast
  | .hashMap T => by rw [deTy]; exact (least_u64 t).atLeast
  | .tuple Ts => by rw [deTy, leastRead]; exact least_tuple t mode env Ts
  | .struct _ (.named fs) => by rw [deTy, leastRead]; exact least_fields t mode env fs
  | .struct _ (.unnamed []) => by rw [deTy]; exact .done_ok (by simp [leastRead, leastReadFields])
  | .struct _ (.unnamed [.mk _ _ T]) => by
    rw [deTy, leastRead]; exact (least_ty t mode env T).atLeast
  | .struct _ (.unnamed (f :: g :: fs)) => by
    rw [deTy, leastRead]
    · exact least_fields t mode env (f :: g :: fs)
    · simp
  | .struct _ .unit => by rw [deTy]; exact .done_ok (by simp [leastRead])
  | .enum _ vs => by
    rw [deTy]
    exact (least_u16 t).atLeast
  | .union _ => by rw [deTy]; exact .done_err
  | .foreign => by rw [deTy]; exact .done_err
theorem least_tuple (t : Target) (mode : BuildMode) (env : Env) :
    (Ts : List RTy) → Yields t (deTuple t mode env Ts) fun _ n => leastReadAll Ts ≤ n
  | [] => by rw [deTuple]; exact .done_ok (by simp [leastReadAll])
  | T :: Ts => by
    rw [deTuple]
    exact (least_ty t mode env T).bind fun v n hn =>
      yields_wrap (least_tuple t mode env Ts) _ fun vs m hm => by simp only [leastReadAll]; omega
theorem least_fields (t : Target) (mode : BuildMode) (env : Env) :
    (fs : List RField) → Yields t (deFields t mode env fs) fun _ n => leastReadFields fs ≤ n
  | [] => by rw [deFields]; exact .done_ok (by simp [leastReadFields])
  | .mk attrs _ T :: fs => by
    rw [deFields]
    by_cases h : SkippedDe attrs
    · rw [if_pos ((deSkips_iff attrs).mpr h)]
      split
      · exact yields_wrap (least_fields t mode env fs) _ fun vs m hm => by
          simp only [leastReadFields, if_pos h]; omega
      · exact .done_err
    · rw [if_neg fun h' => h ((deSkips_iff attrs).mp h')]
      exact (least_ty t mode env T).bind fun v n hn =>
        yields_wrap (least_fields t mode env fs) _ fun vs m hm => by
          simp only [leastReadFields, if_neg h]; omega
end

end Derive

/-- If a value takes no bytes the loop does not end. -/
theorem ReadsOut.endless {σ α : Type} {step : RStep σ} (hl : step.Lawful) {t : Target}
    {p : Prog DeErr α} (hp : Prog.Tame De.orRead p) {v : α}
    (hc : ∀ more, p.complete t more = some (.ok v, more)) {s s' : σ} {cs : List ReadRes}
    {vs : List α} {e : DeErr} (h : ReadsOut step t p s cs vs e s') : False := by
  induction h with
  | @stop s s' cs e hx =>
    rcases hx.written hl hp (enc := []) (hc (before cs)) (List.prefix_refl _) with
      ⟨i, -⟩ | ⟨-, i, j, -⟩
    · cases i
    · exact j (List.prefix_nil.mp i)
  | next _ _ ih => exact ih

end Dlhn
