import Verif.Spec.Splice
import Verif.Proof.Evolve
import Verif.Proof.Body
import Verif.Proof.DeriveBody
/-!
# Lemmas on places inside values
-/
namespace Dlhn.Spec

theorem wireEntries_append (es fs : List (Val × Val)) :
    wireEntries (es ++ fs) = wireEntries es ++ wireEntries fs := by
  induction es with
  | nil => simp [wireEntries]
  | cons e es ih => obtain ⟨k, v⟩ := e; simp [wireEntries, ih]

theorem wireFields_append (es fs : List (String × Val)) :
    wireFields (es ++ fs) = wireFields es ++ wireFields fs := by
  induction es with
  | nil => simp [wireFields]
  | cons e es ih => obtain ⟨k, v⟩ := e; simp [wireFields, ih]

theorem hasAll_place {t : Target} : {Ts : List Ty} → {vs ws : List Val} → {T : Ty} → {v : Val} →
    Ts[vs.length]? = some T → HasAll t Ts (vs ++ v :: ws) →
    Has t T v ∧ ∀ x, Has t T x → HasAll t Ts (vs ++ x :: ws)
  | [], vs, ws, T, v, hT, h => by simp at hT
  | T' :: Ts, [], ws, T, v, hT, h => by
    simp at hT
    subst hT
    rw [HasAll] at h
    obtain ⟨w, ws', e, h1, h2⟩ := h
    cases e
    exact ⟨h1, fun x hx => by rw [HasAll]; exact ⟨x, ws, rfl, hx, h2⟩⟩
  | T' :: Ts, v' :: vs, ws, T, v, hT, h => by
    rw [HasAll] at h
    obtain ⟨w, ws', e, h1, h2⟩ := h
    cases e
    obtain ⟨h3, h4⟩ := hasAll_place (by simpa using hT) h2
    exact ⟨h3, fun x hx => by rw [HasAll]; exact ⟨v', _, rfl, h1, h4 x hx⟩⟩

theorem hasFields_place {t : Target} : {Ts : List (String × Ty)} → {fs gs : List (String × Val)} →
    {n : String} → {T : Ty} → {v : Val} → Ts[fs.length]? = some (n, T) →
    HasFields t Ts (fs ++ (n, v) :: gs) →
    Has t T v ∧ ∀ x, Has t T x → HasFields t Ts (fs ++ (n, x) :: gs)
  | [], vs, ws, n, T, v, hT, h => by simp at hT
  | T' :: Ts, [], ws, n, T, v, hT, h => by
    simp at hT
    subst hT
    rw [HasFields] at h
    obtain ⟨w, ws', e, h1, h2⟩ := h
    cases e
    exact ⟨h1, fun x hx => by rw [HasFields]; exact ⟨x, ws, rfl, hx, h2⟩⟩
  | (m, T') :: Ts, f :: vs, ws, n, T, v, hT, h => by
    rw [HasFields] at h
    obtain ⟨w, ws', e, h1, h2⟩ := h
    cases e
    obtain ⟨h3, h4⟩ := hasFields_place (by simpa using hT) h2
    exact ⟨h3, fun x hx => by rw [HasFields]; exact ⟨w, _, rfl, h1, h4 x hx⟩⟩

theorem allSupported_get {Ts : List Ty} {i : Nat} {T : Ty} (h : AllSupported Ts)
    (hT : Ts[i]? = some T) : Supported T := by
  induction Ts generalizing i with
  | nil => simp at hT
  | cons T' Ts ih =>
    rw [AllSupported] at h
    cases i with
    | zero => simp at hT; exact hT ▸ h.1
    | succ i => exact ih h.2 (by simpa using hT)

theorem fieldsSupported_get {Ts : List (String × Ty)} {i : Nat} {n : String} {T : Ty}
    (h : FieldsSupported Ts) (hT : Ts[i]? = some (n, T)) : Supported T := by
  induction Ts generalizing i with
  | nil => simp at hT
  | cons T' Ts ih =>
    rw [FieldsSupported] at h
    cases i with
    | zero => simp at hT; subst hT; exact h.1
    | succ i => exact ih h.2 (by simpa using hT)

theorem variantsSupported_get {Vs : List (String × VTy)} {i : Nat} {n : String} {V : VTy}
    (h : VariantsSupported Vs) (hV : Vs[i]? = some (n, V)) : PayloadSupported V := by
  induction Vs generalizing i with
  | nil => simp at hV
  | cons V' Vs ih =>
    rw [VariantsSupported] at h
    cases i with
    | zero => simp at hV; subst hV; exact h.1
    | succ i => exact ih h.2 (by simpa using hV)

/-- The payload of a value of an enum, by the index in the value. -/
theorem hasVariant_payload {t : Target} {name : String} {Vs : List (String × VTy)} {v : Val}
    {i : UInt32} {vn : String} {V : VTy} (hl : Vs.length ≤ 16384) (hv : HasVariant t name 0 Vs v)
    (hi : indexOf v = some i) (hV : Vs[i.toNat]? = some (vn, V)) : HasPayload t name i vn V v := by
  rw [hasVariant_iff] at hv
  obtain ⟨j, ⟨wn, W⟩, h1, h2⟩ := hv
  have hj : j < Vs.length := (List.getElem?_eq_some_iff.mp h1).1
  have e : i = UInt32.ofNat j := by
    rw [Nat.zero_add] at h2
    cases W <;> rw [HasPayload] at h2
    · subst h2; simpa [indexOf] using hi.symm
    · obtain ⟨w, rfl, -⟩ := h2; simpa [indexOf] using hi.symm
    · obtain ⟨w, rfl, -⟩ := h2; simpa [indexOf] using hi.symm
    · obtain ⟨w, rfl, -⟩ := h2; simpa [indexOf] using hi.symm
  have e' : i.toNat = j := by rw [e]; simp; omega
  rw [e', h1] at hV
  cases hV
  rw [e]
  simpa using h2

theorem hasVariant_of {t : Target} {name : String} {Vs : List (String × VTy)} {v : Val}
    {i : UInt32} {vn : String} {V : VTy} (hV : Vs[i.toNat]? = some (vn, V))
    (h : HasPayload t name i vn V v) : Has t (.enum name Vs) v := by
  rw [Has, hasVariant_iff]
  exact ⟨i.toNat, _, hV, by simpa using h⟩

theorem Place.supported {T U : Ty} {v u : Val} {put : Val → Val} (h : Place T v U u put) :
    Supported T → Supported U := by
  induction h with
  | here T v => exact id
  | some _ ih => intro hs; rw [Supported] at hs; exact ih hs
  | newtype _ _ ih => intro hs; rw [Supported] at hs; exact ih hs
  | element _ _ _ _ ih => intro hs; rw [Supported] at hs; exact ih hs
  | member _ _ _ hT _ ih => intro hs; rw [Supported] at hs; exact ih (allSupported_get hs hT)
  | tupleField _ _ _ _ hT _ ih => intro hs; rw [Supported] at hs; exact ih (allSupported_get hs hT)
  | value _ _ _ _ _ _ ih => intro hs; rw [Supported] at hs; exact ih hs.2
  | field _ _ _ _ _ hT _ ih => intro hs; rw [Supported] at hs; exact ih (fieldsSupported_get hs hT)
  | newtypeVariant _ _ _ _ hV _ ih =>
    intro hs
    rw [Supported] at hs
    have := variantsSupported_get hs.2 hV
    rw [PayloadSupported] at this
    exact ih this
  | tupleVariant _ _ _ _ _ _ _ hV hT _ ih =>
    intro hs
    rw [Supported] at hs
    have := variantsSupported_get hs.2 hV
    rw [PayloadSupported] at this
    exact ih (allSupported_get this hT)
  | structVariant _ _ _ _ _ _ _ _ hV hT _ ih =>
    intro hs
    rw [Supported] at hs
    have := variantsSupported_get hs.2 hV
    rw [PayloadSupported] at this
    exact ih (fieldsSupported_get this hT)

/-- What is at the place is of the type of the place, and may be replaced. -/
theorem Place.has {t : Target} {T U : Ty} {v u : Val} {put : Val → Val} (h : Place T v U u put) :
    Supported T → Has t T v → Has t U u ∧ ∀ x, Has t U x → Has t T (put x) := by
  induction h with
  | here T v => exact fun _ hv => ⟨hv, fun x hx => hx⟩
  | some _ ih =>
    intro hs hv
    rw [Supported] at hs
    rw [Has] at hv
    rcases hv with hv | ⟨w, e, hv⟩
    · cases hv
    · cases e
      obtain ⟨h1, h2⟩ := ih hs hv
      exact ⟨h1, fun x hx => by rw [Has]; exact .inr ⟨_, rfl, h2 x hx⟩⟩
  | newtype name _ ih =>
    intro hs hv
    rw [Supported] at hs
    rw [Has] at hv
    obtain ⟨w, e, hv⟩ := hv
    cases e
    obtain ⟨h1, h2⟩ := ih hs hv
    exact ⟨h1, fun x hx => by rw [Has]; exact ⟨_, rfl, h2 x hx⟩⟩
  | @element n vs ws T U v u put _ ih =>
    intro hs hv
    rw [Supported] at hs
    rw [Has] at hv
    obtain ⟨us, e, hl, hv⟩ := hv
    cases e
    obtain ⟨h1, h2⟩ := ih hs (hv _ (by simp))
    refine ⟨h1, fun x hx => ?_⟩
    rw [Has]
    refine ⟨vs ++ put x :: ws, by simp, by simpa using hl, fun w hw => ?_⟩
    rw [List.mem_append, List.mem_cons] at hw
    rcases hw with hw | rfl | hw
    · exact hv w (by simp [hw])
    · exact h2 x hx
    · exact hv w (by simp [hw])
  | member Ts vs ws hT _ ih =>
    intro hs hv
    rw [Supported] at hs
    rw [Has] at hv
    obtain ⟨us, e, hv⟩ := hv
    cases e
    obtain ⟨h1, h2⟩ := hasAll_place hT hv
    obtain ⟨h3, h4⟩ := ih (allSupported_get hs hT) h1
    exact ⟨h3, fun x hx => by rw [Has]; exact ⟨_, rfl, h2 _ (h4 x hx)⟩⟩
  | tupleField name Ts vs ws hT _ ih =>
    intro hs hv
    rw [Supported] at hs
    rw [Has] at hv
    obtain ⟨us, e, hv⟩ := hv
    cases e
    obtain ⟨h1, h2⟩ := hasAll_place hT hv
    obtain ⟨h3, h4⟩ := ih (allSupported_get hs hT) h1
    exact ⟨h3, fun x hx => by rw [Has]; exact ⟨_, rfl, h2 _ (h4 x hx)⟩⟩
  | @value n K k es fs T U v u put _ ih =>
    intro hs hv
    rw [Supported] at hs
    rw [Has] at hv
    obtain ⟨us, e, hl, hv⟩ := hv
    cases e
    obtain ⟨h1, h2⟩ := ih hs.2 (hv (k, v) (by simp)).2
    refine ⟨h1, fun x hx => ?_⟩
    rw [Has]
    refine ⟨es ++ (k, put x) :: fs, by simp, by simpa using hl, fun w hw => ?_⟩
    rw [List.mem_append, List.mem_cons] at hw
    rcases hw with hw | rfl | hw
    · exact hv w (by simp [hw])
    · exact ⟨(hv (k, v) (by simp)).1, h2 x hx⟩
    · exact hv w (by simp [hw])
  | field name fld Ts fs gs hT _ ih =>
    intro hs hv
    rw [Supported] at hs
    rw [Has] at hv
    obtain ⟨us, e, hv⟩ := hv
    cases e
    obtain ⟨h1, h2⟩ := hasFields_place hT hv
    obtain ⟨h3, h4⟩ := ih (fieldsSupported_get hs hT) h1
    exact ⟨h3, fun x hx => by rw [Has]; exact ⟨_, rfl, h2 _ (h4 x hx)⟩⟩
  | newtypeVariant name vn i Vs hV _ ih =>
    intro hs hv
    rw [Supported] at hs
    rw [Has] at hv
    have hp := hasVariant_payload hs.1 hv rfl hV
    have hs' := variantsSupported_get hs.2 hV
    rw [PayloadSupported] at hs'
    rw [HasPayload] at hp
    obtain ⟨w, e, hw⟩ := hp
    cases e
    obtain ⟨h1, h2⟩ := ih hs' hw
    exact ⟨h1, fun x hx => hasVariant_of hV (by rw [HasPayload]; exact ⟨_, rfl, h2 x hx⟩)⟩
  | tupleVariant name vn i Vs Ts vs ws hV hT _ ih =>
    intro hs hv
    rw [Supported] at hs
    rw [Has] at hv
    have hp := hasVariant_payload hs.1 hv rfl hV
    have hs' := variantsSupported_get hs.2 hV
    rw [PayloadSupported] at hs'
    rw [HasPayload] at hp
    obtain ⟨us, e, hw⟩ := hp
    cases e
    obtain ⟨h1, h2⟩ := hasAll_place hT hw
    obtain ⟨h3, h4⟩ := ih (allSupported_get hs' hT) h1
    exact ⟨h3, fun x hx => hasVariant_of hV (by rw [HasPayload]; exact ⟨_, rfl, h2 _ (h4 x hx)⟩)⟩
  | structVariant name vn fld i Vs Ts fs gs hV hT _ ih =>
    intro hs hv
    rw [Supported] at hs
    rw [Has] at hv
    have hp := hasVariant_payload hs.1 hv rfl hV
    have hs' := variantsSupported_get hs.2 hV
    rw [PayloadSupported] at hs'
    rw [HasPayload] at hp
    obtain ⟨us, e, hw⟩ := hp
    cases e
    obtain ⟨h1, h2⟩ := hasFields_place hT hw
    obtain ⟨h3, h4⟩ := ih (fieldsSupported_get hs' hT) h1
    exact ⟨h3, fun x hx => hasVariant_of hV (by rw [HasPayload]; exact ⟨_, rfl, h2 _ (h4 x hx)⟩)⟩

/-- The bytes around the place do not depend on what is there. -/
theorem Place.around {T U : Ty} {v u : Val} {put : Val → Val} (h : Place T v U u put) :
    put u = v ∧ ∃ pre post, ∀ x, wire (put x) = pre ++ wire x ++ post := by
  have one : ∀ {f put : Val → Val} {a b : List UInt8},
      (∀ x, wire (f x) = a ++ wire x ++ b) →
      (∃ pre post, ∀ x, wire (put x) = pre ++ wire x ++ post) →
      ∃ pre post, ∀ x, wire (f (put x)) = pre ++ wire x ++ post := by
    rintro f put a b h ⟨pre, post, h'⟩
    exact ⟨a ++ pre, post ++ b, fun x => by rw [h, h']; simp⟩
  induction h with
  | here T v => exact ⟨rfl, [], [], by simp⟩
  | some _ ih =>
    exact ⟨by simp only [ih.1], one (f := .some) (a := [1]) (b := []) (by simp [wire]) ih.2⟩
  | newtype name _ ih =>
    exact ⟨by simp only [ih.1], one (f := .newtypeStruct name) (a := []) (b := []) (by simp [wire]) ih.2⟩
  | element n vs ws _ ih =>
    exact ⟨by simp only [ih.1], one (f := fun x => .seq n (vs ++ x :: ws))
      (a := lengthPrefix n ++ wireAll vs) (b := wireAll ws)
      (by simp [wire, wireAll_append, wireAll]) ih.2⟩
  | member Ts vs ws _ _ ih =>
    exact ⟨by simp only [ih.1], one (f := fun x => .tuple (vs ++ x :: ws)) (a := wireAll vs)
      (b := wireAll ws) (by simp [wire, wireAll_append, wireAll]) ih.2⟩
  | tupleField name Ts vs ws _ _ ih =>
    exact ⟨by simp only [ih.1], one (f := fun x => .tupleStruct name (vs ++ x :: ws)) (a := wireAll vs)
      (b := wireAll ws) (by simp [wire, wireAll_append, wireAll]) ih.2⟩
  | value n K k es fs _ ih =>
    exact ⟨by simp only [ih.1], one (f := fun x => .map n (es ++ (k, x) :: fs))
      (a := lengthPrefix n ++ wireEntries es ++ wire k) (b := wireEntries fs)
      (by simp [wire, wireEntries_append, wireEntries]) ih.2⟩
  | field name fld Ts fs gs _ _ ih =>
    exact ⟨by simp only [ih.1], one (f := fun x => .struct name (fs ++ (fld, x) :: gs))
      (a := wireFields fs) (b := wireFields gs)
      (by simp [wire, wireFields_append, wireFields]) ih.2⟩
  | newtypeVariant name vn i Vs _ _ ih =>
    exact ⟨by simp only [ih.1], one (f := .newtypeVariant name i vn) (a := varint 32 i.toNat) (b := [])
      (by simp [wire]) ih.2⟩
  | tupleVariant name vn i Vs Ts vs ws _ _ _ ih =>
    exact ⟨by simp only [ih.1], one (f := fun x => .tupleVariant name i vn (vs ++ x :: ws))
      (a := varint 32 i.toNat ++ wireAll vs) (b := wireAll ws)
      (by simp [wire, wireAll_append, wireAll]) ih.2⟩
  | structVariant name vn fld i Vs Ts fs gs _ _ _ ih =>
    exact ⟨by simp only [ih.1], one (f := fun x => .structVariant name i vn (fs ++ (fld, x) :: gs))
      (a := varint 32 i.toNat ++ wireFields fs) (b := wireFields gs)
      (by simp [wire, wireFields_append, wireFields]) ih.2⟩

/-! ## Dynamic values -/

open Derive (BodyOk)

theorem bodiesWire_append (as bs : List Body) :
    bodiesWire (as ++ bs) = bodiesWire as ++ bodiesWire bs := by
  induction as with
  | nil => simp [bodiesWire]
  | cons a as ih => simp [bodiesWire, ih]

theorem entriesWire_append (es fs : List (String × Body)) :
    entriesWire (es ++ fs) = entriesWire es ++ entriesWire fs := by
  induction es with
  | nil => simp [entriesWire]
  | cons e es ih => obtain ⟨k, v⟩ := e; simp [entriesWire, ih]

theorem mem_splice {α : Type} {as bs : List α} {x y a : α} (h : a ∈ as ++ x :: bs) :
    a = x ∨ a ∈ as ++ y :: bs := by
  simp only [List.mem_append, List.mem_cons] at h ⊢
  rcases h with h | h | h
  · exact .inr (.inl h)
  · exact .inl h
  · exact .inr (.inr (.inr h))

theorem BodyPlace.conforms {h g : Header} {b c : Body} {put : Body → Body}
    (hp : BodyPlace h b g c put) :
    Conforms h b → Conforms g c ∧ ∀ x, Conforms g x → Conforms h (put x) := by
  induction hp with
  | here h b => exact fun hb => ⟨hb, fun x hx => hx⟩
  | some _ ih =>
    intro hb
    cases hb with
    | some _ _ hb => exact ⟨(ih hb).1, fun x hx => .some _ _ ((ih hb).2 x hx)⟩
  | element as bs _ ih =>
    intro hb
    cases hb with
    | array _ _ hb =>
      obtain ⟨h1, h2⟩ := ih (hb _ (by simp))
      refine ⟨h1, fun x hx => .array _ _ fun y hy => ?_⟩
      rcases mem_splice hy with rfl | hy
      · exact h2 x hx
      · exact hb y hy
  | member hs as bs hh _ ih =>
    intro hb
    cases hb with
    | tuple _ _ hl hb =>
      obtain ⟨h1, h2⟩ := ih (hb _ _ _ hh (by simp))
      refine ⟨h1, fun x hx => .tuple _ _ (by simpa using hl) fun i h' y hi hy => ?_⟩
      rcases getElem?_at as bs _ _ i with ⟨rfl, e1, -⟩ | e
      · rw [e1] at hy
        cases hy
        rw [hh] at hi
        cases hi
        exact h2 x hx
      · rw [e] at hy
        exact hb i h' y hi hy
  | value k es fs _ ih =>
    intro hb
    cases hb with
    | map _ _ hb =>
      obtain ⟨h1, h2⟩ := ih (hb (k, _) (by simp))
      refine ⟨h1, fun x hx => .map _ _ fun y hy => ?_⟩
      rcases mem_splice hy with rfl | hy
      · exact h2 x hx
      · exact hb y hy
  | variant i hs hh _ ih =>
    intro hb
    cases hb with
    | enum _ _ h' b' hi hb =>
      rw [hh] at hi
      cases hi
      exact ⟨(ih hb).1, fun x hx => .enum _ _ _ _ hh ((ih hb).2 x hx)⟩

theorem BodyPlace.around {h g : Header} {b c : Body} {put : Body → Body}
    (hp : BodyPlace h b g c put) :
    put c = b ∧ ∃ pre post, ∀ x, bodyWire (put x) = pre ++ bodyWire x ++ post := by
  have one : ∀ {f put : Body → Body} {a b : List UInt8},
      (∀ x, bodyWire (f x) = a ++ bodyWire x ++ b) →
      (∃ pre post, ∀ x, bodyWire (put x) = pre ++ bodyWire x ++ post) →
      ∃ pre post, ∀ x, bodyWire (f (put x)) = pre ++ bodyWire x ++ post := by
    rintro f put a b h ⟨pre, post, h'⟩
    exact ⟨a ++ pre, post ++ b, fun x => by rw [h, h']; simp⟩
  induction hp with
  | here h b => exact ⟨rfl, [], [], by simp⟩
  | some _ ih =>
    exact ⟨by simp only [ih.1], one (f := .some) (a := [1]) (b := []) (by simp [bodyWire]) ih.2⟩
  | element as bs _ ih =>
    exact ⟨by simp only [ih.1], one (f := fun x => .array (as ++ x :: bs))
      (a := varint 64 (as.length + (bs.length + 1)) ++ bodiesWire as) (b := bodiesWire bs)
      (by simp [bodyWire, bodiesWire_append, bodiesWire]) ih.2⟩
  | member hs as bs _ _ ih =>
    exact ⟨by simp only [ih.1], one (f := fun x => .tuple (as ++ x :: bs)) (a := bodiesWire as)
      (b := bodiesWire bs) (by simp [bodyWire, bodiesWire_append, bodiesWire]) ih.2⟩
  | value k es fs _ ih =>
    exact ⟨by simp only [ih.1], one (f := fun x => .map (es ++ (k, x) :: fs))
      (a := varint 64 (es.length + (fs.length + 1)) ++ entriesWire es ++ block (utf8 k))
      (b := entriesWire fs) (by simp [bodyWire, entriesWire_append, entriesWire]) ih.2⟩
  | variant i hs _ _ ih =>
    exact ⟨by simp only [ih.1], one (f := .enum i) (a := varint 32 i.toNat) (b := [])
      (by simp [bodyWire]) ih.2⟩

theorem BodyPlace.parts {h g : Header} {b c : Body} {put : Body → Body}
    (hp : BodyPlace h b g c put) : ∀ y ∈ parts c, y ∈ parts b := by
  induction hp with
  | here h b => exact fun y hy => hy
  | some _ ih => intro y hy; rw [Spec.parts]; exact List.mem_cons_of_mem _ (ih y hy)
  | element as bs _ ih =>
    intro y hy
    rw [Spec.parts, List.mem_cons, Body.mem_partsAll]
    exact .inr ⟨_, by simp, ih y hy⟩
  | member hs as bs _ _ ih =>
    intro y hy
    rw [Spec.parts, List.mem_cons, Body.mem_partsAll]
    exact .inr ⟨_, by simp, ih y hy⟩
  | value k es fs _ ih =>
    intro y hy
    rw [Spec.parts, List.mem_cons, Body.mem_partsEntries]
    exact .inr ⟨(k, _), by simp, ih y hy⟩
  | variant i hs _ _ ih => intro y hy; rw [Spec.parts]; exact List.mem_cons_of_mem _ (ih y hy)

theorem BodyPlace.ok {t : Target} {mode : BuildMode} {N D : Prop} {h g : Header} {b c : Body}
    {put : Body → Body} (hp : BodyPlace h b g c put) :
    BodyOk t mode N D b → ∀ x, BodyOk t mode N D x → BodyOk t mode N D (put x) := by
  induction hp with
  | here h b => exact fun _ x hx => hx
  | some _ ih =>
    exact fun hb x hx => Derive.good_some (ih (hb.mono (by simp [Spec.parts]; exact fun x h => .inr h)) x hx)
  | element as bs _ ih =>
    intro hb x hx
    have hl := (hb.exist _ (Body.self_mem_parts _)).1
    have hm : ∀ y ∈ as ++ _ :: bs, BodyOk t mode N D y := fun y hy => hb.mono fun z hz => by
      rw [Spec.parts, List.mem_cons, Body.mem_partsAll]; exact .inr ⟨y, hy, hz⟩
    refine Derive.good_array (by simpa [LengthsFit] using hl) fun y hy => ?_
    rcases mem_splice hy with rfl | hy
    · exact ih (hm _ (by simp)) x hx
    · exact hm y hy
  | member hs as bs _ _ ih =>
    intro hb x hx
    have hm : ∀ y ∈ as ++ _ :: bs, BodyOk t mode N D y := fun y hy => hb.mono fun z hz => by
      rw [Spec.parts, List.mem_cons, Body.mem_partsAll]; exact .inr ⟨y, hy, hz⟩
    refine Derive.good_tuple fun y hy => ?_
    rcases mem_splice hy with rfl | hy
    · exact ih (hm _ (by simp)) x hx
    · exact hm y hy
  | @value k es fs _ _ b _ put _ ih =>
    intro hb x hx
    obtain ⟨⟨hl, hk⟩, ha⟩ := hb.exist _ (Body.self_mem_parts _)
    have ha := ha _ rfl
    have hm : ∀ y ∈ es ++ (k, b) :: fs, BodyOk t mode N D y.2 := fun y hy => hb.mono fun z hz => by
      rw [Spec.parts, List.mem_cons, Body.mem_partsEntries]; exact .inr ⟨y, hy, hz⟩
    refine Derive.good_map (by simpa using hl) (fun e he => ?_) ?_ fun y hy => ?_
    · rcases mem_splice (y := (k, b)) he with rfl | he
      · exact hk (k, b) (by simp)
      · exact hk e he
    · have e1 : ∀ l : List (String × Body), Ascending l ↔ (l.map (·.1)).Pairwise fun x y => utf8 x < utf8 y := by
        intro l
        rw [Ascending, List.pairwise_map]
      rw [e1] at ha ⊢
      simpa using ha
    · rcases mem_splice (y := (k, b)) hy with rfl | hy
      · exact ih (hm (k, b) (by simp)) x hx
      · exact hm y hy
  | variant i hs _ _ ih =>
    exact fun hb x hx => Derive.good_enum (ih (hb.mono (by simp [Spec.parts]; exact fun x h => .inr h)) x hx)

end Dlhn.Spec
