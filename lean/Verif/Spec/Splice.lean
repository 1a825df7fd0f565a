import Verif.Spec.Wire
import Verif.Spec.Body
/-!
# Specification: places inside values
-/
namespace Dlhn.Spec

/-- `Place T v U u put`: the value `v` of type `T` has, at some place, the value `u` of type `U`,
and `put x` is `v` with `x` at this place. -/
inductive Place : Ty → Val → Ty → Val → (Val → Val) → Prop where
  | here (T : Ty) (v : Val) : Place T v T v fun x => x
  | some {T U : Ty} {v u : Val} {put : Val → Val} : Place T v U u put →
      Place (.option T) (.some v) U u fun x => .some (put x)
  | newtype (name : String) {T U : Ty} {v u : Val} {put : Val → Val} : Place T v U u put →
      Place (.newtypeStruct name T) (.newtypeStruct name v) U u fun x => .newtypeStruct name (put x)
  -- an element of a sequence
  | element (n : Option Nat) (vs ws : List Val) {T U : Ty} {v u : Val} {put : Val → Val} :
      Place T v U u put →
      Place (.seq T) (.seq n (vs ++ v :: ws)) U u fun x => .seq n (vs ++ put x :: ws)
  -- a member of a tuple
  | member (Ts : List Ty) (vs ws : List Val) {T U : Ty} {v u : Val} {put : Val → Val}
      (hT : Ts[vs.length]? = Option.some T) : Place T v U u put →
      Place (.tuple Ts) (.tuple (vs ++ v :: ws)) U u fun x => .tuple (vs ++ put x :: ws)
  | tupleField (name : String) (Ts : List Ty) (vs ws : List Val) {T U : Ty} {v u : Val}
      {put : Val → Val} (hT : Ts[vs.length]? = Option.some T) : Place T v U u put →
      Place (.tupleStruct name Ts) (.tupleStruct name (vs ++ v :: ws)) U u
        fun x => .tupleStruct name (vs ++ put x :: ws)
  -- a value of a map
  | value (n : Option Nat) (K : Ty) (k : Val) (es fs : List (Val × Val)) {T U : Ty} {v u : Val}
      {put : Val → Val} : Place T v U u put →
      Place (.map K T) (.map n (es ++ (k, v) :: fs)) U u fun x => .map n (es ++ (k, put x) :: fs)
  -- a field of a struct
  | field (name fld : String) (Ts : List (String × Ty)) (fs gs : List (String × Val)) {T U : Ty}
      {v u : Val} {put : Val → Val} (hT : Ts[fs.length]? = Option.some (fld, T)) :
      Place T v U u put →
      Place (.struct name Ts) (.struct name (fs ++ (fld, v) :: gs)) U u
        fun x => .struct name (fs ++ (fld, put x) :: gs)
  -- what a variant holds
  | newtypeVariant (name vn : String) (i : UInt32) (Vs : List (String × VTy)) {T U : Ty}
      {v u : Val} {put : Val → Val} (hV : Vs[i.toNat]? = Option.some (vn, .newtype T)) :
      Place T v U u put →
      Place (.enum name Vs) (.newtypeVariant name i vn v) U u
        fun x => .newtypeVariant name i vn (put x)
  | tupleVariant (name vn : String) (i : UInt32) (Vs : List (String × VTy)) (Ts : List Ty)
      (vs ws : List Val) {T U : Ty} {v u : Val} {put : Val → Val}
      (hV : Vs[i.toNat]? = Option.some (vn, .tuple Ts)) (hT : Ts[vs.length]? = Option.some T) :
      Place T v U u put →
      Place (.enum name Vs) (.tupleVariant name i vn (vs ++ v :: ws)) U u
        fun x => .tupleVariant name i vn (vs ++ put x :: ws)
  | structVariant (name vn fld : String) (i : UInt32) (Vs : List (String × VTy))
      (Ts : List (String × Ty)) (fs gs : List (String × Val)) {T U : Ty} {v u : Val}
      {put : Val → Val} (hV : Vs[i.toNat]? = Option.some (vn, .struct Ts))
      (hT : Ts[fs.length]? = Option.some (fld, T)) : Place T v U u put →
      Place (.enum name Vs) (.structVariant name i vn (fs ++ (fld, v) :: gs)) U u
        fun x => .structVariant name i vn (fs ++ (fld, put x) :: gs)

/-- The same for dynamic values and their headers. -/
inductive BodyPlace : Header → Body → Header → Body → (Body → Body) → Prop where
  | here (h : Header) (b : Body) : BodyPlace h b h b fun x => x
  | some {h g : Header} {b c : Body} {put : Body → Body} : BodyPlace h b g c put →
      BodyPlace (.optional h) (.some b) g c fun x => .some (put x)
  | element (as bs : List Body) {h g : Header} {b c : Body} {put : Body → Body} :
      BodyPlace h b g c put →
      BodyPlace (.array h) (.array (as ++ b :: bs)) g c fun x => .array (as ++ put x :: bs)
  | member (hs : List Header) (as bs : List Body) {h g : Header} {b c : Body} {put : Body → Body}
      (hh : hs[as.length]? = Option.some h) : BodyPlace h b g c put →
      BodyPlace (.tuple hs) (.tuple (as ++ b :: bs)) g c fun x => .tuple (as ++ put x :: bs)
  | value (k : String) (es fs : List (String × Body)) {h g : Header} {b c : Body}
      {put : Body → Body} : BodyPlace h b g c put →
      BodyPlace (.map h) (.map (es ++ (k, b) :: fs)) g c fun x => .map (es ++ (k, put x) :: fs)
  | variant (i : UInt32) (hs : List Header) {h g : Header} {b c : Body} {put : Body → Body}
      (hh : hs[i.toNat]? = Option.some h) : BodyPlace h b g c put →
      BodyPlace (.enum hs) (.enum i b) g c fun x => .enum i (put x)

end Dlhn.Spec
