import Verif.Geom.SubdMaskLemmas
/-!
# Lemmas about meshes that contain another mesh: neighbours and masks are those of the smaller mesh
-/
set_option linter.unusedSectionVars false
namespace Verif.Geom.Subd
open Verif.Geom.Lath

/-- The first laths of `m'` are those of `m`. -/
structure Sub (m m' : Mesh) : Prop where
  le : m.laths ≤ m'.laths
  cf : ∀ l < m.laths, m'.cf l = m.cf l
  cv : ∀ l < m.laths, m'.cv l = m.cv l
  vert : ∀ l < m.laths, m'.vert l = m.vert l
  fvert : ∀ l < m.laths, m'.fvert l = m.fvert l

section
variable {m m' : Mesh} (O : Ok m) (X : Sub m m')
include O X

theorem Sub.ec {l : Nat} (hl : l < m.laths) : m'.ec l = m.ec l := by
  simp only [Mesh.ec, X.cv l hl]
  cases e : m.cv l with
  | none => rfl
  | some x => simp [X.cf x (O.cv_lt _ hl _ e)]

theorem Sub.ccv {l : Nat} (hl : l < m.laths) : m'.ccv l = m.ccv l := by
  simp only [Mesh.ccv, X.cf l hl]
  exact X.ec O (O.cf_lt _ hl)

theorem Sub.faceLoop {l : Nat} : ∀ (f f' x : Nat) (r : List Nat), x < m.laths → f ≤ f' → m.faceLoop l f x = some r → m'.faceLoop l f' x = some r
  | 0, _, _, _, _, _, h => by simp [Mesh.faceLoop] at h
  | f + 1, 0, _, _, _, hf, _ => by omega
  | f + 1, f' + 1, x, r, hx, hf, h => by
    simp only [Mesh.faceLoop] at h ⊢
    by_cases e : x = l
    · rw [if_pos e] at h ⊢; exact h
    · rw [if_neg e] at h ⊢
      rw [Option.map_eq_some_iff] at h ⊢
      obtain ⟨t, ht, rfl⟩ := h
      refine ⟨t, ?_, rfl⟩
      rw [X.cf x hx]
      exact Sub.faceLoop f f' _ _ (O.cf_lt _ hx) (by omega) ht

theorem Sub.Qfe {l : Nat} (hl : l < m.laths) : m'.Qfe l = m.Qfe l := by
  obtain ⟨a, z, h, _⟩ := O.face hl
  rw [h]
  simp only [Mesh.Qfe, Option.map_eq_some_iff] at h ⊢
  obtain ⟨t, ht, e⟩ := h
  refine ⟨t, ?_, e⟩
  rw [X.cf l hl]
  exact X.faceLoop O _ _ _ _ (O.cf_lt _ hl) (by have := X.le; omega) ht

theorem Sub.fwd {l : Nat} : ∀ (f f' : Nat) (o : Option Nat) (r : List Nat × Bool), (∀ x, o = some x → x < m.laths) → f ≤ f' → m.fwd l f o = some r → m'.fwd l f' o = some r
  | 0, f', none, _, _, _, h => by cases f' <;> simpa [Mesh.fwd] using h
  | 0, _, some _, _, _, _, h => by simp [Mesh.fwd] at h
  | _ + 1, f', none, _, _, _, h => by cases f' <;> simpa [Mesh.fwd] using h
  | f + 1, 0, some _, _, _, hf, _ => by omega
  | f + 1, f' + 1, some x, r, hx, hf, h => by
    have hx := hx x rfl
    simp only [Mesh.fwd] at h ⊢
    by_cases e : x = l
    · rw [if_pos e] at h ⊢; exact h
    · rw [if_neg e] at h ⊢
      rw [Option.map_eq_some_iff] at h ⊢
      obtain ⟨t, ht, rfl⟩ := h
      refine ⟨t, ?_, rfl⟩
      rw [X.cv x hx]
      exact Sub.fwd f f' _ _ (fun y hy => O.cv_lt _ hx _ hy) (by omega) ht

theorem Sub.bwd : ∀ (f f' : Nat) (o : Option Nat) (r : List Nat), (∀ x, o = some x → x < m.laths) → f ≤ f' → m.bwd f o = some r → m'.bwd f' o = some r
  | 0, f', none, _, _, _, h => by cases f' <;> simpa [Mesh.bwd] using h
  | 0, _, some _, _, _, _, h => by simp [Mesh.bwd] at h
  | _ + 1, f', none, _, _, _, h => by cases f' <;> simpa [Mesh.bwd] using h
  | f + 1, 0, some _, _, _, hf, _ => by omega
  | f + 1, f' + 1, some x, r, hx, hf, h => by
    have hx := hx x rfl
    simp only [Mesh.bwd] at h ⊢
    rw [Option.map_eq_some_iff] at h ⊢
    obtain ⟨t, ht, rfl⟩ := h
    refine ⟨t, ?_, rfl⟩
    rw [X.ccv O hx]
    exact Sub.bwd f f' _ _ (fun y hy => O.ccv_lt hx hy) (by omega) ht

theorem Sub.around {l : Nat} (hl : l < m.laths) : m'.Qvf l = m.Qvf l ∧ m'.Qve l = m.Qve l := by
  have hle := X.le
  have hc : ∀ x, m.cv l = some x → x < m.laths := fun x e => O.cv_lt _ hl _ e
  have hcc : ∀ x, m.ccv l = some x → x < m.laths := fun x e => O.ccv_lt hl e
  obtain ⟨F, hF, _⟩ := O.fan_all hl
  have h := hF
  simp only [Mesh.Qvf, Option.bind_eq_some_iff] at h
  obtain ⟨⟨a, b⟩, h1, h2⟩ := h
  have e1 : m'.fwd l (m'.laths + 1) (m'.cv l) = some (a, b) := by rw [X.cv l hl]; exact X.fwd O _ _ _ _ hc (by omega) h1
  cases b with
  | false =>
    simp only [Mesh.Qvf, Mesh.Qve, e1, h1, Option.bind_some, Bool.false_eq_true, if_false, and_self]
  | true =>
    simp only [if_true, Option.map_eq_some_iff] at h2
    obtain ⟨t, ht, _⟩ := h2
    have e2 : m'.bwd (m'.laths + 1) (m'.ccv l) = some t := by rw [X.ccv O hl]; exact X.bwd O _ _ _ _ hcc (by omega) ht
    have htN : t.getLastD l < m.laths := by
      have hF2 := O.fan_all hl
      obtain ⟨F', g1, _, _, g2, _⟩ := hF2
      have : F' = l :: a ++ t := by
        simp only [Mesh.Qvf, h1, Option.bind_some, if_true, ht, Option.map_some, Option.some.injEq] at g1
        exact g1.symm
      rcases List.eq_nil_or_concat t with rfl | ⟨u, z, rfl⟩
      · simpa using hl
      · simp only [List.concat_eq_append, List.getLastD_concat] at this ⊢
        exact g2 z (by rw [this]; simp)
    simp only [Mesh.Qvf, Mesh.Qve, e1, h1, e2, ht, Option.bind_some, if_true, Option.map_some, X.cf _ htN, and_self]

theorem Sub.boundaryLoop {l : Nat} : ∀ (f f' : Nat) (o : Option Nat) (r : Bool), (∀ x, o = some x → x < m.laths) → f ≤ f' → m.boundaryLoop l f o = some r → m'.boundaryLoop l f' o = some r
  | 0, f', none, _, _, _, h => by cases f' <;> simpa [Mesh.boundaryLoop] using h
  | 0, _, some _, _, _, _, h => by simp [Mesh.boundaryLoop] at h
  | _ + 1, f', none, _, _, _, h => by cases f' <;> simpa [Mesh.boundaryLoop] using h
  | f + 1, 0, some _, _, _, hf, _ => by omega
  | f + 1, f' + 1, some x, r, hx, hf, h => by
    have hx := hx x rfl
    simp only [Mesh.boundaryLoop] at h ⊢
    by_cases e : x = l
    · rw [if_pos e] at h ⊢; exact h
    · rw [if_neg e] at h ⊢
      rw [X.ccv O hx]
      exact Sub.boundaryLoop f f' _ _ (fun y hy => O.ccv_lt hx hy) (by omega) h

theorem Sub.boundary {l : Nat} (hl : l < m.laths) : m'.isBoundaryVertex l = m.isBoundaryVertex l := by
  obtain ⟨b, hb, _⟩ := O.boundary hl
  rw [hb]
  simp only [Mesh.isBoundaryVertex] at hb ⊢
  rw [X.ccv O hl]
  exact X.boundaryLoop O _ _ _ _ (fun x e => O.ccv_lt hl e) (by have := X.le; omega) hb

theorem Sub.ccfLoop {l : Nat} : ∀ (f f' x r : Nat), x < m.laths → f ≤ f' → m.ccfLoop l f x = some r → m'.ccfLoop l f' x = some r
  | 0, _, _, _, _, _, h => by simp [Mesh.ccfLoop] at h
  | f + 1, 0, _, _, _, hf, _ => by omega
  | f + 1, f' + 1, x, r, hx, hf, h => by
    simp only [Mesh.ccfLoop] at h ⊢
    rw [X.cf x hx]
    by_cases e : m.cf x = l
    · rw [if_pos e] at h ⊢; exact h
    · rw [if_neg e] at h ⊢
      exact Sub.ccfLoop f f' _ _ (O.cf_lt _ hx) (by omega) h

theorem Sub.ccf {l : Nat} (hl : l < m.laths) : m'.ccf l = m.ccf l := by
  obtain ⟨p, hp, e⟩ := O.cf_surj hl
  have h := O.ccf_eq hp e
  have e1 : (m'.ec l).bind m'.cv = (m.ec l).bind m.cv := by
    rw [X.ec O hl]
    cases e : m.ec l with
    | none => rfl
    | some x => simp [X.cv x (O.ec_lt hl e)]
  rw [h]
  simp only [Mesh.ccf, e1] at h ⊢
  cases e2 : (m.ec l).bind m.cv with
  | some x => rw [e2] at h; exact h
  | none =>
    rw [e2] at h
    simp only at h ⊢
    rw [X.cf l hl]
    exact X.ccfLoop O _ _ _ _ (O.cf_lt _ hl) (by have := X.le; omega) h

theorem Sub.Qef {l : Nat} (hl : l < m.laths) : Subd.Qef m' l = Subd.Qef m l := by simp only [Subd.Qef, X.ec O hl]

theorem Sub.discontinuousEdge {E : Type} (close : E → E → Bool) {v v' : Nat → E} (hv : ∀ x < m.laths, v' x = v x) {l : Nat} (hl : l < m.laths) :
    discontinuousEdge close m' v' l = discontinuousEdge close m v l := by
  simp only [Subd.discontinuousEdge, X.ec O hl]
  cases e : m.ec l with
  | none => rfl
  | some x =>
    have hx := O.ec_lt hl e
    simp only [X.cv l hl, X.cv x hx]
    cases e1 : m.cv l with
    | none => simp [Mesh.ec, e1] at e
    | some y =>
      have hy := O.cv_lt _ hl _ e1
      cases e2 : m.cv x with
      | none => simp [hv l hl, hv y hy]
      | some z => simp [hv l hl, hv y hy, hv x hx, hv z (O.cv_lt _ hx _ e2)]

end

theorem mapM_congr' {α : Type} {f g : Nat → Option α} : ∀ {L : List Nat}, (∀ x ∈ L, f x = g x) → L.mapM f = L.mapM g
  | [], _ => rfl
  | x :: L, h => by
    simp only [List.mapM_cons]
    rw [h x (by simp), mapM_congr' (fun y hy => h y (by simp [hy]))]

section
variable (K : Type) {E : Type} [Field K] [LinearOrder K] [AddCommGroup E] [Module K E] {m m' : Mesh} (O : Ok m) (X : Sub m m') {v v' : Nat → E} (hv : ∀ x < m.laths, v' x = v x)
include O X hv

omit [LinearOrder K] in
theorem Sub.facePoint {l : Nat} (hl : l < m.laths) : facePoint K m' v' l = facePoint K m v l := by
  obtain ⟨a, z, h, _, hN, _⟩ := O.face hl
  simp only [Subd.facePoint, X.Qfe O hl, h, Option.map_some]
  rw [List.map_congr_left fun x hx => hv x (hN x hx)]

omit [LinearOrder K] in
theorem Sub.midPoint {l : Nat} (hl : l < m.laths) : midPoint K m' v' l = midPoint K m v l := by
  obtain ⟨p, hp, e⟩ := O.cf_surj hl
  simp only [Subd.midPoint, X.ccf O hl, O.ccf_eq hp e, Option.map_some, hv l hl, hv p hp]

theorem Sub.edgePoint {h h' : Nat → K} (hh : ∀ x < m.laths, h' x = h x) {l : Nat} (hl : l < m.laths) : edgePoint K m' v' h' l = edgePoint K m v h l := by
  obtain ⟨p, hp, e⟩ := O.cf_surj hl
  simp only [Subd.edgePoint, X.Qef O hl, X.ccf O hl, O.ccf_eq hp e, Option.map_some, hv l hl, hv p hp, hh l hl]
  congr 1
  refine mapM_congr' fun x hx => X.facePoint K O hv ?_
  simp only [Subd.Qef] at hx
  cases e : m.ec l with
  | none => rw [e] at hx; simp at hx; omega
  | some y =>
    rw [e] at hx
    simp at hx
    rcases hx with rfl | rfl
    · exact hl
    · exact O.ec_lt hl e

omit hv in
theorem Qve_lt {l : Nat} (hl : l < m.laths) : ∃ L, m.Qve l = some L ∧ ∀ x ∈ L, x < m.laths := by
  by_cases hi : Inside m l
  · obtain ⟨F, _, h2, _, _, h5⟩ := closed_fan O hl hi
    exact ⟨F, h2, h5⟩
  · obtain ⟨x, hx⟩ := not_forall.1 hi
    push Not at hx
    obtain ⟨F, z, s, _, h2, _, h4, h5, _⟩ := open_fan O hl ⟨x, hx⟩
    have hF : ∀ y ∈ F, y < m.laths := fun y hy => (O.fan_lt ((h2.2 y).1 hy)).1 hl
    refine ⟨_, h5, fun y hy => ?_⟩
    simp only [List.mem_append, List.mem_singleton] at hy
    rcases hy with hy | rfl
    · exact hF y hy
    · exact O.cf_lt _ (hF s h4)

theorem Sub.boundaryPoint {l : Nat} (hl : l < m.laths) : boundaryPoint K m' v' l = boundaryPoint K m v l := by
  obtain ⟨L, hL, hN⟩ := Qve_lt O X hl
  simp only [Subd.boundaryPoint, (X.around O hl).2, hL, Option.bind_some, hv l hl]
  congr 1
  have : (L.filter fun x => (m'.ec x).isNone) = L.filter fun x => (m.ec x).isNone := List.filter_congr fun x hx => by rw [X.ec O (hN x hx)]
  rw [this]
  congr 1
  refine mapM_congr' fun x hx => ?_
  have hxN := hN x (List.mem_filter.1 hx).1
  obtain ⟨p, hp, e⟩ := O.cf_surj hxN
  rw [X.vert x hxN, X.vert l hl, X.ccf O hxN, O.ccf_eq hp e, Option.map_some, Option.map_some, hv p hp, hv x hxN]

omit [LinearOrder K] in
theorem Sub.softPoint {L : List Nat} (hN : ∀ x ∈ L, x < m.laths) {l : Nat} (hl : l < m.laths) : softPoint K m' v' L l = softPoint K m v L l := by
  obtain ⟨F, hF, _, _, hFN, _⟩ := O.fan_all hl
  simp only [Subd.softPoint, (X.around O hl).1, hF, Option.bind_some, hv l hl]
  have h1 : F.mapM (Subd.facePoint K m' v') = F.mapM (Subd.facePoint K m v) := mapM_congr' fun x hx => X.facePoint K O hv (hFN x hx)
  have h2 : (L.mapM fun x => (m'.ccf x).map fun y => (2 : K)⁻¹ • (v l + v' y)) = L.mapM fun x => (m.ccf x).map fun y => (2 : K)⁻¹ • (v l + v y) := by
    refine mapM_congr' fun x hx => ?_
    obtain ⟨p, hp, e⟩ := O.cf_surj (hN x hx)
    rw [X.ccf O (hN x hx), O.ccf_eq hp e, Option.map_some, Option.map_some, hv p hp]
  rw [h1, h2]

omit hv in
theorem foldl_hard {h h' : Nat → K} : ∀ (L : List Nat) (a : Hard), (∀ x ∈ L, x < m.laths) → (∀ x < m.laths, h' x = h x) →
    (∀ e, (a.1 = some e ∨ a.2.1 = some e ∨ a.2.2 = some e) → e < m.laths) → L.foldl (hardStep h') a = L.foldl (hardStep h) a ∧
    ∀ e, ((L.foldl (hardStep h) a).1 = some e ∨ (L.foldl (hardStep h) a).2.1 = some e ∨ (L.foldl (hardStep h) a).2.2 = some e) → e < m.laths
  | [], a, _, _, ha => ⟨rfl, ha⟩
  | x :: L, a, hL, hh, ha => by
    have hx := hL x (by simp)
    have hd : ∀ o : Option Nat, (∀ e, o = some e → e < m.laths) → harder h' x o = harder h x o := by
      intro o ho
      cases o with
      | none => rfl
      | some e => simp only [harder, hh x hx, hh e (ho e rfl)]
    have hs : hardStep h' a x = hardStep h a x := by
      simp only [hardStep, hd a.1 (fun e he => ha e (.inl he)), hd a.2.1 (fun e he => ha e (.inr (.inl he))), hd a.2.2 (fun e he => ha e (.inr (.inr he)))]
    rw [List.foldl_cons, List.foldl_cons, hs]
    refine foldl_hard L _ (fun y hy => hL y (by simp [hy])) hh ?_
    intro e he
    simp only [hardStep] at he
    split at he
    · simp only [Option.some.injEq] at he
      rcases he with rfl | he | he
      · exact hx
      · exact ha e (.inl he)
      · exact ha e (.inr (.inl he))
    · split at he
      · simp only [Option.some.injEq] at he
        rcases he with he | rfl | he
        · exact ha e (.inl he)
        · exact hx
        · exact ha e (.inr (.inl he))
      · split at he
        · simp only [Option.some.injEq] at he
          rcases he with he | he | rfl
          · exact ha e (.inl he)
          · exact ha e (.inr (.inl he))
          · exact hx
        · exact ha e he

theorem Sub.creasePoint {h h' : Nat → K} (hh : ∀ x < m.laths, h' x = h x) {l : Nat} (hl : l < m.laths) : creasePoint K m' v' h' l = creasePoint K m v h l := by
  obtain ⟨L, hL, hN⟩ := Qve_lt O X hl
  simp only [Subd.creasePoint, (X.around O hl).2, hL, Option.bind_some, X.softPoint K O hv hN hl]
  obtain ⟨he, hlt⟩ := foldl_hard K O X L (none, none, none) hN hh (by simp)
  have hf : (L.filter fun x => decide (0 < h' x)) = L.filter fun x => decide (0 < h x) := List.filter_congr fun x hx => by rw [hh x (hN x hx)]
  rw [he, hf]
  generalize L.foldl (hardStep h) (none, none, none) = e at hlt ⊢
  have hb : ∀ o : Option Nat, (∀ x, o = some x → x < m.laths) → o.bind m'.ccf = o.bind m.ccf := by
    intro o ho
    cases o with
    | none => rfl
    | some x => exact X.ccf O (ho x rfl)
  have hm : ∀ o : Option Nat, (∀ x, o = some x → x < m.laths) → o.map h' = o.map h := by
    intro o ho
    cases o with
    | none => rfl
    | some x => simp [hh x (ho x rfl)]
  have e1 := fun x hx => hlt x (.inl hx)
  have e2 := fun x hx => hlt x (.inr (.inl hx))
  have e3 := fun x hx => hlt x (.inr (.inr hx))
  rw [hb e.1 e1, hb e.2.1 e2, hm e.2.1 e2, hm e.2.2 e3, hv l hl]
  have hp : ∀ o : Option Nat, (∀ x, o = some x → x < m.laths) → ∀ y, o.bind m.ccf = some y → v' y = v y := by
    intro o ho y hy
    cases o with
    | none => simp at hy
    | some x =>
      obtain ⟨p, hp, e⟩ := O.cf_surj (ho x rfl)
      rw [Option.bind_some, O.ccf_eq hp e] at hy
      cases hy
      exact hv _ hp
  have : ((e.1.bind m.ccf).bind fun x => (e.2.1.bind m.ccf).map fun y => (8 : K)⁻¹ • (v' x + v' y + (6 : K) • v l)) =
      (e.1.bind m.ccf).bind fun x => (e.2.1.bind m.ccf).map fun y => (8 : K)⁻¹ • (v x + v y + (6 : K) • v l) := by
    cases q1 : e.1.bind m.ccf with
    | none => rfl
    | some x =>
      cases q2 : e.2.1.bind m.ccf with
      | none => rfl
      | some y => simp [hp _ e1 x q1, hp _ e2 y q2]
  rw [this]

theorem Sub.vertexPoint {h h' c c' : Nat → K} (hh : ∀ x < m.laths, h' x = h x) (hc : ∀ x < m.laths, c' x = c x) {l : Nat} (hl : l < m.laths) :
    vertexPoint K m' v' h' c' l = vertexPoint K m v h c l := by
  simp only [Subd.vertexPoint, X.boundary O hl, X.boundaryPoint K O hv hl, X.creasePoint K O hv hh hl, hc l hl, hv l hl]

omit [Field K] [LinearOrder K] [AddCommGroup E] [Module K E] in
theorem Sub.discontinuousVertex (close : E → E → Bool) {l : Nat} (hl : l < m.laths) : discontinuousVertex close m' v' l = discontinuousVertex close m v l := by
  obtain ⟨F, hF, _, _, hFN, _⟩ := O.fan_all hl
  simp only [Subd.discontinuousVertex, (X.around O hl).1, hF, Option.map_some, hv l hl, Option.some.injEq]
  rw [Bool.eq_iff_iff, List.any_eq_true, List.any_eq_true]
  constructor
  · rintro ⟨x, hx, h⟩; exact ⟨x, hx, by rw [← hv x (hFN x hx)]; exact h⟩
  · rintro ⟨x, hx, h⟩; exact ⟨x, hx, by rw [hv x (hFN x hx)]; exact h⟩

end

section
variable (K : Type) {E : Type} [Field K] [LinearOrder K] [AddCommGroup E] [Module K E] (close : E → E → Bool) {m m' : Mesh} (O : Ok m) (X : Sub m m') (k : Cls) {P P' : Nat → E}
  (hP : ∀ x < m.laths, P' (k.index m x) = P (k.index m x)) {h h' c c' : Nat → K} (hh : ∀ x < m.laths, h' x = h x) (hc : ∀ x < m.laths, c' x = c x) {l : Nat} (hl : l < m.laths)
include O X hP hl

omit O hl in
theorem Sub.value : ∀ x < m.laths, P' (k.index m' x) = P (k.index m x) := by
  intro x hx
  rw [← hP x hx]
  cases k <;> simp only [Cls.index, X.vert x hx, X.fvert x hx]

theorem Sub.createFaceVertex : createFaceVertex K m' k P' l = createFaceVertex K m k P l := X.facePoint K O (X.value k hP) hl

include hh in
theorem Sub.createEdgeVertex : createEdgeVertex K close m' k P' h' l = createEdgeVertex K close m k P h l := by
  have hv := X.value k hP
  have h1 := X.edgePoint K O hv hh hl
  have h2 := X.midPoint K O hv hl
  cases k
  · simp only [Subd.createEdgeVertex, X.ec O hl, h1, h2]
  · simp only [Subd.createEdgeVertex, h2]
  · simp only [Subd.createEdgeVertex, X.ec O hl, h1, h2, X.discontinuousEdge O close hv hl]
  · simp only [Subd.createEdgeVertex, h2]

include hh hc in
theorem Sub.createVertex : createVertex K close m' k P' h' c' l = createVertex K close m k P h c l := by
  have hv := X.value k hP
  have h1 := X.vertexPoint K O hv hh hc hl
  have h2 := hv l hl
  cases k
  · simp only [Subd.createVertex, h1]
  · simp only [Subd.createVertex, h2]
  · simp only [Subd.createVertex, h1, h2, X.discontinuousVertex O hv close hl]
  · simp only [Subd.createVertex, h2]

end
end Verif.Geom.Subd
