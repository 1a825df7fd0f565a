import Verif.Model.Stack
import Verif.Spec.Stack
import Verif.Proof.Rec
import Verif.Proof.Body
import Verif.Proof.BodyGen
import Verif.Proof.Header
import Verif.Proof.Writer
/-! # The stack of dynamic values -/
namespace Dlhn

open Spec

/-! ## Depths -/

theorem depthAll_le {hs : List Header} {d : Nat} :
    depthAll hs ≤ d ↔ ∀ h ∈ hs, depth h ≤ d := by
  induction hs with
  | nil => simp [depthAll]
  | cons h hs ih => simp [depthAll, Nat.max_le, ih]

theorem bodyDepthAll_le {bs : List Body} {d : Nat} :
    bodyDepthAll bs ≤ d ↔ ∀ b ∈ bs, bodyDepth b ≤ d := by
  induction bs with
  | nil => simp [bodyDepthAll]
  | cons b bs ih => simp [bodyDepthAll, Nat.max_le, ih]

theorem bodyDepthEntries_le {es : List (String × Body)} {d : Nat} :
    bodyDepthEntries es ≤ d ↔ ∀ e ∈ es, bodyDepth e.2 ≤ d := by
  induction es with
  | nil => simp [bodyDepthEntries]
  | cons e es ih => obtain ⟨k, b⟩ := e; simp [bodyDepthEntries, Nat.max_le, ih]

theorem depth_pos (h : Header) : 1 ≤ depth h := by cases h <;> simp [depth]

theorem bodyDepth_pos (b : Body) : 1 ≤ bodyDepth b := by cases b <;> simp [bodyDepth]

namespace Body

variable {t : Target} {mode : BuildMode} {size : Nat}

/-! ## Deserializing -/

theorem eachDe_eq {f : Header → Prog DeErr Body} : ∀ {hs : List Header},
    (∀ h ∈ hs, f h = de t mode size h) → eachDe f hs = deAll t mode size hs
  | [], _ => by rw [eachDe, deAll]
  | h :: hs, hf => by
    rw [eachDe, deAll, hf h (by simp), eachDe_eq (hs := hs) fun g hg => hf g (by simp [hg])]

theorem deNth_eq : ∀ (hs : List Header) (n : Nat), deNth t mode size n hs =
    match hs[n]? with
    | Option.none => .done (.err .read)
    | Option.some h => de t mode size h
  | [], n => by rw [deNth]; simp
  | h :: _, 0 => by rw [deNth]; simp
  | _ :: hs, n + 1 => by rw [deNth, deNth_eq hs n]; simp

theorem deOn_eq : ∀ (d : Nat) (h : Header), depth h ≤ d →
    deOn t mode size d h = de t mode size h
  | 0, h, hd => by have := depth_pos h; omega
  | d + 1, .optional inner, hd => by
    simp only [depth] at hd
    rw [deOn, de, deOn_eq d inner (by omega)]
  | d + 1, .array inner, hd => by
    simp only [depth] at hd
    rw [deOn, de, deOn_eq d inner (by omega)]
  | d + 1, .tuple inner, hd => by
    simp only [depth] at hd
    rw [deOn, de, eachDe_eq fun h hh => deOn_eq d h (depthAll_le.mp (by omega) h hh)]
  | d + 1, .map inner, hd => by
    simp only [depth] at hd
    rw [deOn, de, deOn_eq d inner (by omega)]
  | d + 1, .enum inner, hd => by
    simp only [depth] at hd
    rw [deOn, de]
    congr 1
    funext i
    rw [deNth_eq]
    cases hi : inner[i.toNat]? with
    | none => rfl
    | some h => simp only; rw [deOn_eq d h (depthAll_le.mp (by omega) h (List.mem_of_getElem? hi))]
  | d + 1, .unit, _ => by rw [deOn] <;> simp
  | d + 1, .boolean, _ => by rw [deOn] <;> simp
  | d + 1, .uint8, _ => by rw [deOn] <;> simp
  | d + 1, .uint16, _ => by rw [deOn] <;> simp
  | d + 1, .uint32, _ => by rw [deOn] <;> simp
  | d + 1, .uint64, _ => by rw [deOn] <;> simp
  | d + 1, .int8, _ => by rw [deOn] <;> simp
  | d + 1, .int16, _ => by rw [deOn] <;> simp
  | d + 1, .int32, _ => by rw [deOn] <;> simp
  | d + 1, .int64, _ => by rw [deOn] <;> simp
  | d + 1, .float32, _ => by rw [deOn] <;> simp
  | d + 1, .float64, _ => by rw [deOn] <;> simp
  | d + 1, .bigUInt, _ => by rw [deOn] <;> simp
  | d + 1, .bigInt, _ => by rw [deOn] <;> simp
  | d + 1, .bigDecimal, _ => by rw [deOn] <;> simp
  | d + 1, .string, _ => by rw [deOn] <;> simp
  | d + 1, .binary, _ => by rw [deOn] <;> simp
  | d + 1, .date, _ => by rw [deOn] <;> simp
  | d + 1, .dateTime, _ => by rw [deOn] <;> simp

open Rec (Below cong_below Cong)

theorem below_alloc {α : Type} {p q : Prog DeErr α} (n : Nat) (h : Below t p q) :
    Below t (.alloc n p) (.alloc n q) := by
  intro fin bs
  simp only [Prog.exec]
  split
  · exact .inl rfl
  · exact h fin bs

theorem below_each {f : Header → Prog DeErr Body} (hf : ∀ h, Below t (f h) (de t mode size h)) :
    ∀ hs : List Header, Below t (eachDe f hs) (deAll t mode size hs)
  | [] => by rw [eachDe, deAll]; exact (cong_below t).refl _
  | h :: hs => by
    rw [eachDe, deAll]
    exact (cong_below t).bind (hf h) fun _ => (cong_below t).wrap (below_each hf hs) _

theorem below_insertLoop {p q : Prog DeErr Body} (h : Below t p q) (n : Nat) :
    ∀ m, Below t (insertLoop t p n m) (insertLoop t q n m) := by
  induction n with
  | zero => exact fun m => (cong_below t).refl _
  | succ n ih =>
    exact fun m => (cong_below t).bind ((cong_below t).refl _) fun k =>
      (cong_below t).bind h fun v => ih _

theorem below_de (t : Target) (mode : BuildMode) (size : Nat) : ∀ (d : Nat) (h : Header),
    Below t (deOn t mode size d h) (de t mode size h)
  | 0, h => fun fin bs => .inr (by rw [deOn]; rfl)
  | d + 1, .optional inner => by
    rw [deOn, de]
    refine (cong_below t).bind ((cong_below t).refl _) fun b => ?_
    split
    · exact (cong_below t).wrap (below_de t mode size d inner) _
    · exact (cong_below t).refl _
  | d + 1, .array inner => by
    rw [deOn, de]
    exact (cong_below t).bind ((cong_below t).refl _) fun c => below_alloc _
      ((cong_below t).wrap ((cong_below t).times (below_de t mode size d inner) _) _)
  | d + 1, .tuple inner => by
    rw [deOn, de]
    exact below_alloc _ ((cong_below t).wrap (below_each (below_de t mode size d) inner) _)
  | d + 1, .map inner => by
    rw [deOn, de]
    exact (cong_below t).bind ((cong_below t).refl _) fun c =>
      (cong_below t).wrap (below_insertLoop (below_de t mode size d inner) _ _) _
  | d + 1, .enum inner => by
    rw [deOn, de]
    refine (cong_below t).bind ((cong_below t).refl _) fun i => ?_
    rw [deNth_eq]
    cases inner[i.toNat]? with
    | none => exact (cong_below t).refl _
    | some h => exact (cong_below t).wrap (below_de t mode size d h) _
  | d + 1, .unit => by rw [deOn_eq _ _ (by simp [depth])]; exact (cong_below t).refl _
  | d + 1, .boolean => by rw [deOn_eq _ _ (by simp [depth])]; exact (cong_below t).refl _
  | d + 1, .uint8 => by rw [deOn_eq _ _ (by simp [depth])]; exact (cong_below t).refl _
  | d + 1, .uint16 => by rw [deOn_eq _ _ (by simp [depth])]; exact (cong_below t).refl _
  | d + 1, .uint32 => by rw [deOn_eq _ _ (by simp [depth])]; exact (cong_below t).refl _
  | d + 1, .uint64 => by rw [deOn_eq _ _ (by simp [depth])]; exact (cong_below t).refl _
  | d + 1, .int8 => by rw [deOn_eq _ _ (by simp [depth])]; exact (cong_below t).refl _
  | d + 1, .int16 => by rw [deOn_eq _ _ (by simp [depth])]; exact (cong_below t).refl _
  | d + 1, .int32 => by rw [deOn_eq _ _ (by simp [depth])]; exact (cong_below t).refl _
  | d + 1, .int64 => by rw [deOn_eq _ _ (by simp [depth])]; exact (cong_below t).refl _
  | d + 1, .float32 => by rw [deOn_eq _ _ (by simp [depth])]; exact (cong_below t).refl _
  | d + 1, .float64 => by rw [deOn_eq _ _ (by simp [depth])]; exact (cong_below t).refl _
  | d + 1, .bigUInt => by rw [deOn_eq _ _ (by simp [depth])]; exact (cong_below t).refl _
  | d + 1, .bigInt => by rw [deOn_eq _ _ (by simp [depth])]; exact (cong_below t).refl _
  | d + 1, .bigDecimal => by rw [deOn_eq _ _ (by simp [depth])]; exact (cong_below t).refl _
  | d + 1, .string => by rw [deOn_eq _ _ (by simp [depth])]; exact (cong_below t).refl _
  | d + 1, .binary => by rw [deOn_eq _ _ (by simp [depth])]; exact (cong_below t).refl _
  | d + 1, .date => by rw [deOn_eq _ _ (by simp [depth])]; exact (cong_below t).refl _
  | d + 1, .dateTime => by rw [deOn_eq _ _ (by simp [depth])]; exact (cong_below t).refl _

theorem returns_each {f : Header → Prog DeErr Body} {d : Nat}
    (hf : ∀ h, Returns t (f h) fun b => bodyDepth b ≤ d) :
    ∀ hs : List Header, Returns t (eachDe f hs) fun bs => ∀ b ∈ bs, bodyDepth b ≤ d
  | [] => by rw [eachDe]; exact Returns.done_ok (by simp)
  | h :: hs => by
    rw [eachDe]
    refine (hf h).bind fun b hb => (returns_each hf hs).wrap _ fun bs hbs => ?_
    intro c hc
    rcases List.mem_cons.mp hc with rfl | hc
    · exact hb
    · exact hbs c hc

/-- What conforms to a header is no deeper than it. -/
theorem conforms_depth {h : Header} {b : Body} (hc : Conforms h b) : bodyDepth b ≤ depth h := by
  induction hc with
  | some h b _ ih => simp only [bodyDepth, depth]; omega
  | array h bs _ ih =>
    simp only [bodyDepth, depth]
    have := bodyDepthAll_le.mpr ih
    omega
  | tuple hs bs hl _ ih =>
    simp only [bodyDepth, depth]
    have : bodyDepthAll bs ≤ depthAll hs := bodyDepthAll_le.mpr fun b hb => by
      obtain ⟨i, hi, rfl⟩ := List.getElem_of_mem hb
      have h1 := ih i (hs[i]'(by omega)) bs[i] (by simp) (by simp)
      exact Nat.le_trans h1 (depthAll_le.mp (Nat.le_refl _) _ (List.getElem_mem _))
    omega
  | map h es _ ih =>
    simp only [bodyDepth, depth]
    have := bodyDepthEntries_le.mpr ih
    omega
  | enum hs i h b hi _ ih =>
    simp only [bodyDepth, depth]
    have := depthAll_le.mp (Nat.le_refl (depthAll hs)) h (List.mem_of_getElem? hi)
    omega
  | _ => simp [bodyDepth, depth]

theorem returns_depth (t : Target) (mode : BuildMode) (size : Nat) : ∀ (d : Nat) (h : Header),
    Returns t (deOn t mode size d h) fun b => bodyDepth b ≤ d
  | 0, h => by rw [deOn]; intro fin bs a rest hx; cases hx
  | d + 1, .optional inner => by
    rw [deOn]
    refine Returns.any.bind fun b _ => ?_
    split
    · exact (returns_depth t mode size d inner).wrap _ fun c hc => by simp only [bodyDepth]; omega
    · exact Returns.done_ok (by simp [bodyDepth])
  | d + 1, .array inner => by
    rw [deOn]
    refine Returns.any.bind fun len _ => Returns.alloc fun _ => ?_
    refine ((returns_depth t mode size d inner).times _).wrap _ fun bs hbs => ?_
    have := bodyDepthAll_le.mpr hbs.2
    simp only [bodyDepth]; omega
  | d + 1, .tuple inner => by
    rw [deOn]
    refine Returns.alloc fun _ => (returns_each (returns_depth t mode size d) inner).wrap _
      fun bs hbs => ?_
    have := bodyDepthAll_le.mpr hbs
    simp only [bodyDepth]; omega
  | d + 1, .map inner => by
    rw [deOn]
    refine Returns.any.bind fun len _ => (returns_insertLoop (returns_depth t mode size d inner) _
      [] (by simp) List.Pairwise.nil).wrap _ fun m hm => ?_
    have := bodyDepthEntries_le.mpr hm.1
    simp only [bodyDepth]; omega
  | d + 1, .enum inner => by
    rw [deOn]
    refine Returns.any.bind fun i _ => ?_
    cases inner[i.toNat]? with
    | none => exact Returns.done_err
    | some h =>
      exact (returns_depth t mode size d h).wrap _ fun c hc => by simp only [bodyDepth]; omega
  | d + 1, .unit => returns_leaf (by simp [depth])
  | d + 1, .boolean => returns_leaf (by simp [depth])
  | d + 1, .uint8 => returns_leaf (by simp [depth])
  | d + 1, .uint16 => returns_leaf (by simp [depth])
  | d + 1, .uint32 => returns_leaf (by simp [depth])
  | d + 1, .uint64 => returns_leaf (by simp [depth])
  | d + 1, .int8 => returns_leaf (by simp [depth])
  | d + 1, .int16 => returns_leaf (by simp [depth])
  | d + 1, .int32 => returns_leaf (by simp [depth])
  | d + 1, .int64 => returns_leaf (by simp [depth])
  | d + 1, .float32 => returns_leaf (by simp [depth])
  | d + 1, .float64 => returns_leaf (by simp [depth])
  | d + 1, .bigUInt => returns_leaf (by simp [depth])
  | d + 1, .bigInt => returns_leaf (by simp [depth])
  | d + 1, .bigDecimal => returns_leaf (by simp [depth])
  | d + 1, .string => returns_leaf (by simp [depth])
  | d + 1, .binary => returns_leaf (by simp [depth])
  | d + 1, .date => returns_leaf (by simp [depth])
  | d + 1, .dateTime => returns_leaf (by simp [depth])
where
  returns_leaf {d : Nat} {h : Header} (hd : depth h ≤ d) :
      Returns t (deOn t mode size d h) fun b => bodyDepth b ≤ d := by
    rw [deOn_eq d h hd]
    exact fun fin bs b rest hx =>
      Nat.le_trans (conforms_depth (returns_conforms t mode size h fin bs b rest hx)) hd

/-! ### Headers cut off at a depth -/

/-- The header with everything below a depth replaced by an enum without members, which no body
conforms to. -/
def prune : Nat → Header → Header
  | 0, _ => .enum []
  | d + 1, .optional h => .optional (prune d h)
  | d + 1, .array h => .array (prune d h)
  | d + 1, .tuple hs => .tuple (hs.map (prune d))
  | d + 1, .map h => .map (prune d h)
  | d + 1, .enum hs => .enum (hs.map (prune d))
  | _ + 1, h => h

theorem conforms_prune : ∀ (d : Nat) {h : Header} {b : Body}, Conforms h b → bodyDepth b ≤ d →
    Conforms (prune d h) b
  | 0, _, b, _, hd => by have := bodyDepth_pos b; omega
  | d + 1, _, _, hc, hd => by
    cases hc with
    | none h => rw [prune]; exact .none _
    | some h b hb =>
      simp only [bodyDepth] at hd
      rw [prune]; exact .some _ _ (conforms_prune d hb (by omega))
    | array h bs hb =>
      simp only [bodyDepth] at hd
      rw [prune]
      exact .array _ _ fun b hm => conforms_prune d (hb b hm) (bodyDepthAll_le.mp (by omega) b hm)
    | tuple hs bs hl hb =>
      simp only [bodyDepth] at hd
      rw [prune]
      refine .tuple _ _ (by simpa using hl) fun i h b h1 h2 => ?_
      rw [List.getElem?_map, Option.map_eq_some_iff] at h1
      obtain ⟨g, h1, rfl⟩ := h1
      exact conforms_prune d (hb i g b h1 h2)
        (bodyDepthAll_le.mp (by omega) b (List.mem_of_getElem? h2))
    | map h es hb =>
      simp only [bodyDepth] at hd
      rw [prune]
      exact .map _ _ fun e he => conforms_prune d (hb e he)
        (bodyDepthEntries_le.mp (by omega) e he)
    | enum hs i h b hi hb =>
      simp only [bodyDepth] at hd
      rw [prune]
      exact .enum _ i (prune d h) b (by rw [List.getElem?_map, hi]; rfl)
        (conforms_prune d hb (by omega))
    | unit => rw [prune] <;> first | exact .unit | simp
    | boolean => rw [prune] <;> first | exact .boolean _ | simp
    | uint8 => rw [prune] <;> first | exact .uint8 _ | simp
    | uint16 => rw [prune] <;> first | exact .uint16 _ | simp
    | uint32 => rw [prune] <;> first | exact .uint32 _ | simp
    | uint64 => rw [prune] <;> first | exact .uint64 _ | simp
    | int8 => rw [prune] <;> first | exact .int8 _ | simp
    | int16 => rw [prune] <;> first | exact .int16 _ | simp
    | int32 => rw [prune] <;> first | exact .int32 _ | simp
    | int64 => rw [prune] <;> first | exact .int64 _ | simp
    | float32 => rw [prune] <;> first | exact .float32 _ | simp
    | float64 => rw [prune] <;> first | exact .float64 _ | simp
    | bigUInt => rw [prune] <;> first | exact .bigUInt _ | simp
    | bigInt => rw [prune] <;> first | exact .bigInt _ | simp
    | bigDecimal => rw [prune] <;> first | exact .bigDecimal _ | simp
    | string => rw [prune] <;> first | exact .string _ | simp
    | binary => rw [prune] <;> first | exact .binary _ | simp
    | date => rw [prune] <;> first | exact .date _ | simp
    | dateTime => rw [prune] <;> first | exact .dateTime _ | simp

open Rec (SameOk cong_sameOk)

theorem same_alloc {α : Type} {p q : Prog DeErr α} (n : Nat) (h : SameOk t p q) :
    SameOk t (.alloc n p) (.alloc n q) := by
  intro fin bs a rest
  simp only [Prog.exec]
  split
  · exact Iff.rfl
  · exact h fin bs a rest

theorem same_each {d : Nat}
    (hf : ∀ h, SameOk t (deOn t mode size d h) (de t mode size (prune d h))) :
    ∀ hs : List Header,
      SameOk t (eachDe (deOn t mode size d) hs) (deAll t mode size (hs.map (prune d)))
  | [] => by rw [eachDe, List.map_nil, deAll]; exact (cong_sameOk t).refl _
  | h :: hs => by
    rw [eachDe, List.map_cons, deAll]
    exact (cong_sameOk t).bind (hf h) fun _ => (cong_sameOk t).wrap (same_each hf hs) _

theorem same_insertLoop {p q : Prog DeErr Body} (h : SameOk t p q) (n : Nat) :
    ∀ m, SameOk t (insertLoop t p n m) (insertLoop t q n m) := by
  induction n with
  | zero => exact fun m => (cong_sameOk t).refl _
  | succ n ih =>
    exact fun m => (cong_sameOk t).bind ((cong_sameOk t).refl _) fun k =>
      (cong_sameOk t).bind h fun v => ih _

theorem same_prune (t : Target) (mode : BuildMode) (size : Nat) : ∀ (d : Nat) (h : Header),
    SameOk t (deOn t mode size d h) (de t mode size (prune d h))
  | 0, h => by
    intro fin bs a rest
    rw [deOn, prune]
    constructor
    · intro hx; cases hx
    · intro hx
      cases returns_conforms t mode size _ fin bs a rest hx with
      | enum hs i h b hi _ => simp at hi
  | d + 1, .optional inner => by
    rw [deOn, prune, de]
    refine (cong_sameOk t).bind ((cong_sameOk t).refl _) fun b => ?_
    split
    · exact (cong_sameOk t).wrap (same_prune t mode size d inner) _
    · exact (cong_sameOk t).refl _
  | d + 1, .array inner => by
    rw [deOn, prune, de]
    exact (cong_sameOk t).bind ((cong_sameOk t).refl _) fun c => same_alloc _
      ((cong_sameOk t).wrap ((cong_sameOk t).times (same_prune t mode size d inner) _) _)
  | d + 1, .tuple inner => by
    rw [deOn, prune, de, List.length_map]
    exact same_alloc _ ((cong_sameOk t).wrap (same_each (same_prune t mode size d) inner) _)
  | d + 1, .map inner => by
    rw [deOn, prune, de]
    exact (cong_sameOk t).bind ((cong_sameOk t).refl _) fun c =>
      (cong_sameOk t).wrap (same_insertLoop (same_prune t mode size d inner) _ _) _
  | d + 1, .enum inner => by
    rw [deOn, prune, de]
    refine (cong_sameOk t).bind ((cong_sameOk t).refl _) fun i => ?_
    rw [deNth_eq, List.getElem?_map]
    cases inner[i.toNat]? with
    | none => exact (cong_sameOk t).refl _
    | some h => exact (cong_sameOk t).wrap (same_prune t mode size d h) _
  | d + 1, .unit => by rw [deOn_eq _ _ (by simp [depth]), prune] <;> first | exact (cong_sameOk t).refl _ | simp
  | d + 1, .boolean => by rw [deOn_eq _ _ (by simp [depth]), prune] <;> first | exact (cong_sameOk t).refl _ | simp
  | d + 1, .uint8 => by rw [deOn_eq _ _ (by simp [depth]), prune] <;> first | exact (cong_sameOk t).refl _ | simp
  | d + 1, .uint16 => by rw [deOn_eq _ _ (by simp [depth]), prune] <;> first | exact (cong_sameOk t).refl _ | simp
  | d + 1, .uint32 => by rw [deOn_eq _ _ (by simp [depth]), prune] <;> first | exact (cong_sameOk t).refl _ | simp
  | d + 1, .uint64 => by rw [deOn_eq _ _ (by simp [depth]), prune] <;> first | exact (cong_sameOk t).refl _ | simp
  | d + 1, .int8 => by rw [deOn_eq _ _ (by simp [depth]), prune] <;> first | exact (cong_sameOk t).refl _ | simp
  | d + 1, .int16 => by rw [deOn_eq _ _ (by simp [depth]), prune] <;> first | exact (cong_sameOk t).refl _ | simp
  | d + 1, .int32 => by rw [deOn_eq _ _ (by simp [depth]), prune] <;> first | exact (cong_sameOk t).refl _ | simp
  | d + 1, .int64 => by rw [deOn_eq _ _ (by simp [depth]), prune] <;> first | exact (cong_sameOk t).refl _ | simp
  | d + 1, .float32 => by rw [deOn_eq _ _ (by simp [depth]), prune] <;> first | exact (cong_sameOk t).refl _ | simp
  | d + 1, .float64 => by rw [deOn_eq _ _ (by simp [depth]), prune] <;> first | exact (cong_sameOk t).refl _ | simp
  | d + 1, .bigUInt => by rw [deOn_eq _ _ (by simp [depth]), prune] <;> first | exact (cong_sameOk t).refl _ | simp
  | d + 1, .bigInt => by rw [deOn_eq _ _ (by simp [depth]), prune] <;> first | exact (cong_sameOk t).refl _ | simp
  | d + 1, .bigDecimal => by rw [deOn_eq _ _ (by simp [depth]), prune] <;> first | exact (cong_sameOk t).refl _ | simp
  | d + 1, .string => by rw [deOn_eq _ _ (by simp [depth]), prune] <;> first | exact (cong_sameOk t).refl _ | simp
  | d + 1, .binary => by rw [deOn_eq _ _ (by simp [depth]), prune] <;> first | exact (cong_sameOk t).refl _ | simp
  | d + 1, .date => by rw [deOn_eq _ _ (by simp [depth]), prune] <;> first | exact (cong_sameOk t).refl _ | simp
  | d + 1, .dateTime => by rw [deOn_eq _ _ (by simp [depth]), prune] <;> first | exact (cong_sameOk t).refl _ | simp

/-! ### Nothing else exhausts the stack -/

/-- No data make the decoder exhaust the stack. -/
def Spared (t : Target) {α : Type} (p : Prog DeErr α) : Prop :=
  ∀ fin bs, Prog.exec t fin p bs ≠ .panic .stackOverflow

theorem closed_spared (hm : 4096 ≤ t.memLimit) : De.Closed t (fun {_} p => Spared t p) :=
  have hT := De.closed_total hm
  have total : ∀ {α : Type} {p : Prog DeErr α}, Prog.Total t p → Spared t p := by
    intro α p hp fin bs hx
    have := hp.exec fin bs
    rw [hx] at this
    exact this
  { ok := fun _ _ _ h => by cases h
    err := fun _ _ _ h => by cases h
    bind := by
      intro α β p f hp hf fin bs
      rw [Prog.exec_bind]
      cases hx : Prog.exec t fin p bs with
      | ok x => exact hf x.1 fin x.2
      | err e => intro h; cases h
      | panic q => intro h; cases h; exact hp fin bs hx
    read := fun n hn => total (hT.read n hn)
    u16 := total hT.u16
    u32 := total hT.u32
    u64 := total hT.u64
    string := total hT.string
    byteBuf := total hT.byteBuf }

theorem spared_body (hm : 4096 ≤ t.memLimit) (mode : BuildMode) (size : Nat) (h : Header) :
    Spared t (de t mode size h) :=
  closed_body (closed_spared hm) mode size (fun _ => True)
    (fun n k _ hk fin bs => by
      simp only [Prog.exec]
      cases ha : t.allocate n with
      | none => exact hk fin bs
      | some q =>
        intro hx
        simp only [Outcome.panic.injEq] at hx
        subst hx
        rw [Target.allocate] at ha
        split at ha
        · cases ha
        · split at ha <;> cases ha) h
    (fun _ _ _ => trivial) (fun _ _ => trivial) fun _ => .inr fun fin bs hx => by cases hx

end Body

/-! ## Writing -/

/-- The first encoder does what the second does, or runs out of stack having written a prefix. -/
def WBelow {ε : Type} (p q : WProg ε) : Prop :=
  p = q ∨ p.exec.2 = .panic .stackOverflow ∧ p.exec.1 <+: q.exec.1

theorem WBelow.andThen {ε : Type} {p q p' q' : WProg ε} (h : WBelow p q) (h' : WBelow p' q') :
    WBelow (p.andThen p') (q.andThen q') := by
  rcases h with rfl | ⟨h1, h2⟩
  · rcases h' with rfl | ⟨h1, h2⟩
    · exact .inl rfl
    · rw [WBelow, WProg.exec_andThen, WProg.exec_andThen]
      rcases hp : p.exec with ⟨o, r⟩
      cases r with
      | ok _ => exact .inr ⟨h1, by simpa using h2⟩
      | err e =>
        left
        exact andThen_fail p (by rw [hp]; simp) p' q'
      | panic x =>
        left
        exact andThen_fail p (by rw [hp]; simp) p' q'
  · right
    rw [WProg.exec_andThen, WProg.exec_andThen]
    rcases hp : p.exec with ⟨o, r⟩
    rw [hp] at h1 h2
    simp only at h1 h2
    subst h1
    refine ⟨rfl, h2.trans ?_⟩
    rcases q.exec with ⟨o', r'⟩
    cases r' <;> simp
where
  andThen_fail : ∀ (p : WProg ε), p.exec.2 ≠ .ok () → ∀ p' q' : WProg ε,
      p.andThen p' = p.andThen q'
    | .done (.ok ()), h, _, _ => (h rfl).elim
    | .done (.err _), _, _, _ => rfl
    | .done (.panic _), _, _, _ => rfl
    | .writeAll bs f k, h, p', q' => by
      rw [WProg.andThen, WProg.andThen, andThen_fail k h p' q']

namespace Body

variable {mode : BuildMode}

theorem eachSer_eq {f : Body → WProg SerErr} : ∀ {bs : List Body},
    (∀ b ∈ bs, f b = ser mode b) → eachSer f bs = serAll mode bs
  | [], _ => by rw [eachSer, serAll]
  | b :: bs, hf => by
    rw [eachSer, serAll, hf b (by simp), eachSer_eq (bs := bs) fun g hg => hf g (by simp [hg])]

theorem eachEntry_eq {f : Body → WProg SerErr} : ∀ {es : List (String × Body)},
    (∀ e ∈ es, f e.2 = ser mode e.2) → eachEntry f es = serEntries mode es
  | [], _ => by rw [eachEntry, serEntries]
  | (k, b) :: es, hf => by
    rw [eachEntry, serEntries, hf (k, b) (by simp),
      eachEntry_eq (es := es) fun g hg => hf g (by simp [hg])]

theorem serOn_eq : ∀ (d : Nat) (b : Body), bodyDepth b ≤ d → serOn mode d b = ser mode b
  | 0, b, hd => by have := bodyDepth_pos b; omega
  | d + 1, .some b, hd => by
    simp only [bodyDepth] at hd
    rw [serOn, ser, serOn_eq d b (by omega)]
  | d + 1, .array bs, hd => by
    simp only [bodyDepth] at hd
    rw [serOn, ser, eachSer_eq fun b hb => serOn_eq d b (bodyDepthAll_le.mp (by omega) b hb)]
  | d + 1, .tuple bs, hd => by
    simp only [bodyDepth] at hd
    rw [serOn, ser, eachSer_eq fun b hb => serOn_eq d b (bodyDepthAll_le.mp (by omega) b hb)]
  | d + 1, .map es, hd => by
    simp only [bodyDepth] at hd
    rw [serOn, ser, eachEntry_eq fun e he =>
      serOn_eq d e.2 (bodyDepthEntries_le.mp (by omega) e he)]
  | d + 1, .enum i b, hd => by
    simp only [bodyDepth] at hd
    rw [serOn, ser, serOn_eq d b (by omega)]
  | d + 1, .unit, _ => by rw [serOn] <;> simp
  | d + 1, .none, _ => by rw [serOn] <;> simp
  | d + 1, .boolean _, _ => by rw [serOn] <;> simp
  | d + 1, .uint8 _, _ => by rw [serOn] <;> simp
  | d + 1, .uint16 _, _ => by rw [serOn] <;> simp
  | d + 1, .uint32 _, _ => by rw [serOn] <;> simp
  | d + 1, .uint64 _, _ => by rw [serOn] <;> simp
  | d + 1, .int8 _, _ => by rw [serOn] <;> simp
  | d + 1, .int16 _, _ => by rw [serOn] <;> simp
  | d + 1, .int32 _, _ => by rw [serOn] <;> simp
  | d + 1, .int64 _, _ => by rw [serOn] <;> simp
  | d + 1, .float32 _, _ => by rw [serOn] <;> simp
  | d + 1, .float64 _, _ => by rw [serOn] <;> simp
  | d + 1, .bigUInt _, _ => by rw [serOn] <;> simp
  | d + 1, .bigInt _, _ => by rw [serOn] <;> simp
  | d + 1, .bigDecimal _, _ => by rw [serOn] <;> simp
  | d + 1, .string _, _ => by rw [serOn] <;> simp
  | d + 1, .binary _, _ => by rw [serOn] <;> simp
  | d + 1, .date _, _ => by rw [serOn] <;> simp
  | d + 1, .dateTime _, _ => by rw [serOn] <;> simp

theorem wbelow_each {f : Body → WProg SerErr} (hf : ∀ b, WBelow (f b) (ser mode b)) :
    ∀ bs : List Body, WBelow (eachSer f bs) (serAll mode bs)
  | [] => by rw [eachSer, serAll]; exact .inl rfl
  | b :: bs => by rw [eachSer, serAll]; exact (hf b).andThen (wbelow_each hf bs)

theorem wbelow_entries {f : Body → WProg SerErr} (hf : ∀ b, WBelow (f b) (ser mode b)) :
    ∀ es : List (String × Body), WBelow (eachEntry f es) (serEntries mode es)
  | [] => by rw [eachEntry, serEntries]; exact .inl rfl
  | (k, b) :: es => by
    rw [eachEntry, serEntries]
    exact WBelow.andThen (.inl rfl) ((hf b).andThen (wbelow_entries hf es))

/-- Bodies without members, and the others. -/
theorem leaf_or (b : Body) : bodyDepth b = 1 ∨ (∃ c, b = .some c) ∨ (∃ bs, b = .array bs) ∨
    (∃ bs, b = .tuple bs) ∨ (∃ es, b = .map es) ∨ ∃ i c, b = .enum i c := by
  cases b <;> simp [bodyDepth]

theorem wbelow_ser (mode : BuildMode) : ∀ (d : Nat) (b : Body),
    WBelow (serOn mode d b) (ser mode b)
  | 0, b => .inr (by rw [serOn]; exact ⟨rfl, List.nil_prefix⟩)
  | d + 1, b => by
    rcases leaf_or b with h | ⟨c, rfl⟩ | ⟨bs, rfl⟩ | ⟨bs, rfl⟩ | ⟨es, rfl⟩ | ⟨i, c, rfl⟩
    · exact .inl (serOn_eq _ _ (by omega))
    · rw [serOn, ser]; exact WBelow.andThen (.inl rfl) (wbelow_ser mode d c)
    · rw [serOn, ser]; exact WBelow.andThen (.inl rfl) (wbelow_each (wbelow_ser mode d) bs)
    · rw [serOn, ser]; exact wbelow_each (wbelow_ser mode d) bs
    · rw [serOn, ser]; exact WBelow.andThen (.inl rfl) (wbelow_entries (wbelow_ser mode d) es)
    · rw [serOn, ser]; exact WBelow.andThen (.inl rfl) (wbelow_ser mode d c)

theorem each_deep {f : Body → WProg SerErr} {d : Nat}
    (hf : ∀ b, (f b).exec.2 = .ok () → bodyDepth b ≤ d) : ∀ bs : List Body,
    (eachSer f bs).exec.2 = .ok () → bodyDepthAll bs ≤ d
  | [], _ => by simp [bodyDepthAll]
  | b :: bs, h => by
    rw [eachSer, WProg.andThen_ok_iff] at h
    simp only [bodyDepthAll, Nat.max_le]
    exact ⟨hf b h.1, each_deep hf bs h.2⟩

theorem entries_deep {f : Body → WProg SerErr} {d : Nat}
    (hf : ∀ b, (f b).exec.2 = .ok () → bodyDepth b ≤ d) : ∀ es : List (String × Body),
    (eachEntry f es).exec.2 = .ok () → bodyDepthEntries es ≤ d
  | [], _ => by simp [bodyDepthEntries]
  | (k, b) :: es, h => by
    rw [eachEntry, WProg.andThen_ok_iff, WProg.andThen_ok_iff] at h
    simp only [bodyDepthEntries, Nat.max_le]
    exact ⟨hf b h.2.1, entries_deep hf es h.2.2⟩

theorem ser_deep (mode : BuildMode) : ∀ (d : Nat) (b : Body),
    (serOn mode d b).exec.2 = .ok () → bodyDepth b ≤ d
  | 0, b, h => by rw [serOn] at h; cases h
  | d + 1, b, h => by
    rcases leaf_or b with hb | ⟨c, rfl⟩ | ⟨bs, rfl⟩ | ⟨bs, rfl⟩ | ⟨es, rfl⟩ | ⟨i, c, rfl⟩
    · omega
    · rw [serOn, WProg.andThen_ok_iff] at h
      have := ser_deep mode d c h.2
      simp only [bodyDepth]; omega
    · rw [serOn, WProg.andThen_ok_iff] at h
      have := each_deep (ser_deep mode d) bs h.2
      simp only [bodyDepth]; omega
    · rw [serOn] at h
      have := each_deep (ser_deep mode d) bs h
      simp only [bodyDepth]; omega
    · rw [serOn, WProg.andThen_ok_iff] at h
      have := entries_deep (ser_deep mode d) es h.2
      simp only [bodyDepth]; omega
    · rw [serOn, WProg.andThen_ok_iff] at h
      have := ser_deep mode d c h.2
      simp only [bodyDepth]; omega

/-! ## Validating -/

theorem allOn_some {α : Type} {f : α → Option Bool} {g : α → Bool} :
    ∀ {as : List α}, (∀ a ∈ as, f a = Option.some (g a)) → allOn f as = Option.some (as.all g)
  | [], _ => rfl
  | a :: as, h => by
    rw [allOn, h a (by simp), List.all_cons, Option.bind_some,
      allOn_some (as := as) fun b hb => h b (by simp [hb])]
    cases g a <;> simp

theorem allOn_true {α : Type} {f : α → Option Bool} :
    ∀ {as : List α}, allOn f as = Option.some true → ∀ a ∈ as, f a = Option.some true
  | [], _ => by simp
  | a :: as, h => by
    rw [allOn] at h
    cases ha : f a with
    | none => simp [ha] at h
    | some r =>
      cases r with
      | false => simp [ha] at h
      | true =>
        simp only [ha, Option.bind_some, if_true] at h
        intro b hb
        rcases List.mem_cons.mp hb with rfl | hb
        · exact ha
        · exact allOn_true h b hb

theorem allOn_agree {α : Type} {f : α → Option Bool} {g : α → Bool}
    (h : ∀ a, f a = Option.none ∨ f a = Option.some (g a)) :
    ∀ as : List α, allOn f as = Option.none ∨ allOn f as = Option.some (as.all g)
  | [] => .inr rfl
  | a :: as => by
    rw [allOn, List.all_cons]
    rcases h a with ha | ha <;> rw [ha]
    · exact .inl rfl
    · rw [Option.bind_some]
      cases g a with
      | false => exact .inr rfl
      | true => simpa using allOn_agree h as

theorem validateZip_all : ∀ (hs : List Header) (bs : List Body),
    validateZip hs bs = (hs.zip bs).all fun p => validate p.1 p.2
  | [], _ => by rw [validateZip] <;> simp
  | _ :: _, [] => by rw [validateZip] <;> simp
  | h :: hs, b :: bs => by rw [validateZip, validateZip_all hs bs]; simp

theorem validateNth_eq : ∀ (hs : List Header) (n : Nat) (v : Body), validateNth hs n v =
    match hs[n]? with
    | Option.none => false
    | Option.some h => validate h v
  | [], _, _ => by rw [validateNth]; simp
  | _ :: _, 0, _ => by rw [validateNth]; simp
  | _ :: hs, n + 1, v => by rw [validateNth, validateNth_eq hs n v]; simp

/-- The pairs that are compared member by member, and the others. -/
theorem pair_or (h : Header) (b : Body) : (∃ i v, h = .optional i ∧ b = .some v) ∨
    (∃ i bs, h = .array i ∧ b = .array bs) ∨ (∃ hs bs, h = .tuple hs ∧ b = .tuple bs) ∨
    (∃ i es, h = .map i ∧ b = .map es) ∨ (∃ hs i v, h = .enum hs ∧ b = .enum i v) ∨
    (∀ d, validateOn (d + 1) h b = Option.some (validate h b)) ∧
      (validate h b = true → bodyDepth b = 1) := by
  cases h <;> cases b <;> first
    | (exact .inl ⟨_, _, rfl, rfl⟩)
    | (exact .inr (.inl ⟨_, _, rfl, rfl⟩))
    | (exact .inr (.inr (.inl ⟨_, _, rfl, rfl⟩)))
    | (exact .inr (.inr (.inr (.inl ⟨_, _, rfl, rfl⟩))))
    | (exact .inr (.inr (.inr (.inr (.inl ⟨_, _, _, rfl, rfl⟩)))))
    | (refine .inr (.inr (.inr (.inr (.inr ⟨fun d => by rw [validateOn] <;> simp, fun hv => ?_⟩))))
       first
        | rfl
        | (have hv := (Body.validate_iff _ _).mp hv; cases hv))

theorem validateOn_eq : ∀ (d : Nat) (h : Header) (b : Body), depth h ≤ d ∨ bodyDepth b ≤ d →
    validateOn d h b = Option.some (validate h b)
  | 0, h, b, hd => by have := depth_pos h; have := bodyDepth_pos b; omega
  | d + 1, h, b, hd => by
    rcases pair_or h b with ⟨i, v, rfl, rfl⟩ | ⟨i, bs, rfl, rfl⟩ | ⟨hs, bs, rfl, rfl⟩ |
      ⟨i, es, rfl, rfl⟩ | ⟨hs, i, v, rfl, rfl⟩ | hl
    · simp only [depth, bodyDepth] at hd
      rw [validateOn, validate, validateOn_eq d i v (by omega)]
    · simp only [depth, bodyDepth] at hd
      rw [validateOn, validate, allOn_some fun b hb => validateOn_eq d i b ?_]
      rcases hd with hd | hd
      · exact .inl (by omega)
      · exact .inr (bodyDepthAll_le.mp (by omega) b hb)
    · simp only [depth, bodyDepth] at hd
      rw [validateOn, validate, validateZip_all,
        allOn_some (g := fun p : Header × Body => validate p.1 p.2) fun p hp => validateOn_eq d _ _ ?_]
      · cases hs.length == bs.length <;> simp
      · have := List.of_mem_zip hp
        rcases hd with hd | hd
        · exact .inl (depthAll_le.mp (by omega) _ this.1)
        · exact .inr (bodyDepthAll_le.mp (by omega) _ this.2)
    · simp only [depth, bodyDepth] at hd
      rw [validateOn, validate, allOn_some (g := fun e : String × Body => validate i e.2)
        fun e he => validateOn_eq d i e.2 ?_]
      rcases hd with hd | hd
      · exact .inl (by omega)
      · exact .inr (bodyDepthEntries_le.mp (by omega) e he)
    · simp only [depth, bodyDepth] at hd
      rw [validateOn, validate, validateNth_eq]
      cases hi : hs[i.toNat]? with
      | none => rfl
      | some h =>
        refine validateOn_eq d h v ?_
        rcases hd with hd | hd
        · exact .inl (depthAll_le.mp (by omega) h (List.mem_of_getElem? hi))
        · exact .inr (by omega)
    · exact hl.1 d

theorem validateOn_agree : ∀ (d : Nat) (h : Header) (b : Body),
    validateOn d h b = Option.none ∨ validateOn d h b = Option.some (validate h b)
  | 0, h, b => .inl (by rw [validateOn])
  | d + 1, h, b => by
    rcases pair_or h b with ⟨i, v, rfl, rfl⟩ | ⟨i, bs, rfl, rfl⟩ | ⟨hs, bs, rfl, rfl⟩ |
      ⟨i, es, rfl, rfl⟩ | ⟨hs, i, v, rfl, rfl⟩ | hl
    · rw [validateOn, validate]; exact validateOn_agree d i v
    · rw [validateOn, validate]; exact allOn_agree (fun b => validateOn_agree d i b) bs
    · rw [validateOn, validate, validateZip_all]
      cases hs.length == bs.length with
      | false => exact .inr rfl
      | true => simpa using allOn_agree (fun p : Header × Body => validateOn_agree d p.1 p.2) _
    · rw [validateOn, validate]
      exact allOn_agree (fun e : String × Body => validateOn_agree d i e.2) es
    · rw [validateOn, validate, validateNth_eq]
      cases hs[i.toNat]? with
      | none => exact .inr rfl
      | some h => exact validateOn_agree d h v
    · exact .inr (hl.1 d)

theorem valid_deep : ∀ (d : Nat) (h : Header) (b : Body),
    validateOn d h b = Option.some true → bodyDepth b ≤ d
  | 0, h, b, hv => by rw [validateOn] at hv; cases hv
  | d + 1, h, b, hv => by
    rcases pair_or h b with ⟨i, v, rfl, rfl⟩ | ⟨i, bs, rfl, rfl⟩ | ⟨hs, bs, rfl, rfl⟩ |
      ⟨i, es, rfl, rfl⟩ | ⟨hs, i, v, rfl, rfl⟩ | hl
    · rw [validateOn] at hv
      have := valid_deep d i v hv
      simp only [bodyDepth]; omega
    · rw [validateOn] at hv
      have := bodyDepthAll_le.mpr fun b hb => valid_deep d i b (allOn_true hv b hb)
      simp only [bodyDepth]; omega
    · rw [validateOn] at hv
      split at hv
      · rename_i hl
        have hl : hs.length = bs.length := by simpa using hl
        have : bodyDepthAll bs ≤ d := bodyDepthAll_le.mpr fun b hb => by
          obtain ⟨i, hi, rfl⟩ := List.getElem_of_mem hb
          exact valid_deep d hs[i] bs[i] (allOn_true hv (hs[i], bs[i]) (by
            rw [List.mem_iff_getElem]
            exact ⟨i, by simp; omega, by simp⟩))
        simp only [bodyDepth]; omega
      · cases hv
    · rw [validateOn] at hv
      have := bodyDepthEntries_le.mpr fun e he => valid_deep d i e.2 (allOn_true hv e he)
      simp only [bodyDepth]; omega
    · rw [validateOn] at hv
      cases hi : hs[i.toNat]? with
      | none => simp [hi] at hv
      | some h =>
        simp only [hi] at hv
        have := valid_deep d h v hv
        simp only [bodyDepth]; omega
    · obtain ⟨h1, h2⟩ := hl
      have hv' : validate h b = true := by simpa [h1 d] using hv
      have := h2 hv'
      omega

end Body

/-! ## Serializing headers -/
namespace Header

theorem eachSerialize_eq {f : Header → WProg IoErr} : ∀ {hs : List Header},
    (∀ h ∈ hs, f h = serialize h) → eachSerialize f hs = serializeAll hs
  | [], _ => by rw [eachSerialize, serializeAll]
  | h :: hs, hf => by
    rw [eachSerialize, serializeAll, hf h (by simp),
      eachSerialize_eq (hs := hs) fun g hg => hf g (by simp [hg])]

/-- Headers without members, and the others. -/
theorem leaf_or (h : Header) : (depth h = 1 ∧ ∀ d, serializeOn (d + 1) h = serialize h) ∨
    (∃ i, h = .optional i) ∨ (∃ i, h = .array i) ∨ (∃ hs, h = .tuple hs) ∨ (∃ i, h = .map i) ∨
    ∃ hs, h = .enum hs := by
  cases h <;> first
    | (exact .inr (.inl ⟨_, rfl⟩))
    | (exact .inr (.inr (.inl ⟨_, rfl⟩)))
    | (exact .inr (.inr (.inr (.inl ⟨_, rfl⟩))))
    | (exact .inr (.inr (.inr (.inr (.inl ⟨_, rfl⟩)))))
    | (exact .inr (.inr (.inr (.inr (.inr ⟨_, rfl⟩)))))
    | (refine .inl ⟨by simp [depth], fun d => ?_⟩; rw [serializeOn] <;> simp)

theorem serializeOn_eq : ∀ (d : Nat) (h : Header), depth h ≤ d → serializeOn d h = serialize h
  | 0, h, hd => by have := depth_pos h; omega
  | d + 1, h, hd => by
    rcases leaf_or h with ⟨-, hl⟩ | ⟨i, rfl⟩ | ⟨i, rfl⟩ | ⟨hs, rfl⟩ | ⟨i, rfl⟩ | ⟨hs, rfl⟩
    · exact hl d
    all_goals simp only [depth] at hd
    · rw [serializeOn, serialize, serializeOn_eq d i (by omega)]
    · rw [serializeOn, serialize, serializeOn_eq d i (by omega)]
    · rw [serializeOn, serialize, eachSerialize_eq fun h hh =>
        serializeOn_eq d h (Dlhn.depthAll_le.mp (by omega) h hh)]
    · rw [serializeOn, serialize, serializeOn_eq d i (by omega)]
    · rw [serializeOn, serialize, eachSerialize_eq fun h hh =>
        serializeOn_eq d h (Dlhn.depthAll_le.mp (by omega) h hh)]

theorem wbelow_each {f : Header → WProg IoErr} (hf : ∀ h, WBelow (f h) (serialize h)) :
    ∀ hs : List Header, WBelow (eachSerialize f hs) (serializeAll hs)
  | [] => by rw [eachSerialize, serializeAll]; exact .inl rfl
  | h :: hs => by rw [eachSerialize, serializeAll]; exact (hf h).andThen (wbelow_each hf hs)

theorem wbelow_serialize : ∀ (d : Nat) (h : Header), WBelow (serializeOn d h) (serialize h)
  | 0, h => .inr (by rw [serializeOn]; exact ⟨rfl, List.nil_prefix⟩)
  | d + 1, h => by
    rcases leaf_or h with ⟨-, hl⟩ | ⟨i, rfl⟩ | ⟨i, rfl⟩ | ⟨hs, rfl⟩ | ⟨i, rfl⟩ | ⟨hs, rfl⟩
    · exact .inl (hl d)
    · rw [serializeOn, serialize]; exact WBelow.andThen (.inl rfl) (wbelow_serialize d i)
    · rw [serializeOn, serialize]; exact WBelow.andThen (.inl rfl) (wbelow_serialize d i)
    · rw [serializeOn, serialize]
      exact WBelow.andThen (.inl rfl)
        (WBelow.andThen (.inl rfl) (wbelow_each (wbelow_serialize d) hs))
    · rw [serializeOn, serialize]; exact WBelow.andThen (.inl rfl) (wbelow_serialize d i)
    · rw [serializeOn, serialize]
      exact WBelow.andThen (.inl rfl)
        (WBelow.andThen (.inl rfl) (wbelow_each (wbelow_serialize d) hs))

theorem each_deep {f : Header → WProg IoErr} {d : Nat}
    (hf : ∀ h, (f h).exec.2 = .ok () → depth h ≤ d) : ∀ hs : List Header,
    (eachSerialize f hs).exec.2 = .ok () → depthAll hs ≤ d
  | [], _ => by simp [depthAll]
  | h :: hs, hx => by
    rw [eachSerialize, WProg.andThen_ok_iff] at hx
    simp only [depthAll, Nat.max_le]
    exact ⟨hf h hx.1, each_deep hf hs hx.2⟩

theorem serialize_deep : ∀ (d : Nat) (h : Header),
    (serializeOn d h).exec.2 = .ok () → depth h ≤ d
  | 0, h, hx => by rw [serializeOn] at hx; cases hx
  | d + 1, h, hx => by
    rcases leaf_or h with ⟨hl, -⟩ | ⟨i, rfl⟩ | ⟨i, rfl⟩ | ⟨hs, rfl⟩ | ⟨i, rfl⟩ | ⟨hs, rfl⟩
    · omega
    · rw [serializeOn, WProg.andThen_ok_iff] at hx
      have := serialize_deep d i hx.2
      simp only [depth]; omega
    · rw [serializeOn, WProg.andThen_ok_iff] at hx
      have := serialize_deep d i hx.2
      simp only [depth]; omega
    · rw [serializeOn, WProg.andThen_ok_iff, WProg.andThen_ok_iff] at hx
      have := each_deep (serialize_deep d) hs hx.2.2
      simp only [depth]; omega
    · rw [serializeOn, WProg.andThen_ok_iff] at hx
      have := serialize_deep d i hx.2
      simp only [depth]; omega
    · rw [serializeOn, WProg.andThen_ok_iff, WProg.andThen_ok_iff] at hx
      have := each_deep (serialize_deep d) hs hx.2.2
      simp only [depth]; omega

end Header
end Dlhn
