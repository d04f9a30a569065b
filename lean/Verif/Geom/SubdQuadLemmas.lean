import Verif.Geom.SubdPointLemmas
import Verif.Geom.LathFacetLemmas
/-!
# Lemmas about the laths of a facet that is subdivided
-/
set_option linter.unusedSectionVars false
namespace Verif.Geom.Subd
open Verif.Geom.Lath

/-- In a facet of four laths without links, the previous lath. -/
theorem ccf_quad {m : Mesh} {a : Nat} (ha : a + 3 < m.laths) (hcf : ∀ r < 4, m.cf (a + r) = a + (r + 1) % 4) (hcv : ∀ r < 4, m.cv (a + r) = none) {r : Nat} (hr : r < 4) :
    m.ccf (a + r) = some (a + (r + 3) % 4) := by
  have hec : m.ec (a + r) = none := by simp [Mesh.ec, hcv r hr]
  simp only [Mesh.ccf, hec, Option.bind_none]
  obtain ⟨k, hk⟩ : ∃ k, m.laths + 1 = k + 3 := ⟨m.laths - 2, by omega⟩
  rw [hk, hcf r hr, Mesh.ccfLoop, hcf _ (Nat.mod_lt _ (by omega)), if_neg (by omega), Mesh.ccfLoop, hcf _ (Nat.mod_lt _ (by omega)), if_neg (by omega),
    Mesh.ccfLoop, hcf _ (Nat.mod_lt _ (by omega)), if_pos (by omega)]
  congr 2
  omega

theorem turn_quad {m : Mesh} {a : Nat} (h : ∀ r < 4, m.ccf (a + r) = some (a + (r + 3) % 4)) : ∀ (k r : Nat), r < 4 → turn m k (a + r) = some (a + (r + 3 * k) % 4)
  | 0, r, hr => by simp [turn, Nat.mod_eq_of_lt hr]
  | k + 1, r, hr => by
    rw [turn, h r hr, Option.bind_some, turn_quad h k _ (Nat.mod_lt _ (by omega))]
    congr 2
    omega

/-- The square of a positive sharpness. -/
def sq {K : Type} [Field K] [LinearOrder K] (k : K) : K := if 0 < k then k * k else 0

/-- A positive sharpness. -/
def pos {K : Type} [Field K] [LinearOrder K] (k : K) : K := if 0 < k then k else 0

section
variable {K E : Type} [Field K] [LinearOrder K] [AddCommGroup E] [Module K E]

/-- The state after `i` facets for the laths `L` of a facet were made, starting with `s1`. -/
structure Quads (m0 : Mesh) (s1 : State K E) (L : List Nat) (v e : List (Nat × Nat)) (f : Nat × Nat) (i : Nat) (s : State K E) : Prop where
  laths : s.mesh.laths = s1.mesh.laths + 4 * i
  cf_old : ∀ l < s1.mesh.laths, s.mesh.cf l = s1.mesh.cf l
  cv_old : ∀ l < s1.mesh.laths, s.mesh.cv l = s1.mesh.cv l
  vert_old : ∀ l < s1.mesh.laths, s.mesh.vert l = s1.mesh.vert l
  fvert_old : ∀ l < s1.mesh.laths, s.mesh.fvert l = s1.mesh.fvert l
  cf_new : ∀ j < i, ∀ r < 4, s.mesh.cf (s1.mesh.laths + 4 * j + r) = s1.mesh.laths + 4 * j + (r + 1) % 4
  cv_new : ∀ j < i, ∀ r < 4, s.mesh.cv (s1.mesh.laths + 4 * j + r) = none
  vert_a : ∀ j < i, s.mesh.vert (s1.mesh.laths + 4 * j) = (v.getD j (0, 0)).1 ∧ s.mesh.fvert (s1.mesh.laths + 4 * j) = (v.getD j (0, 0)).2
  vert_b : ∀ j < i, s.mesh.vert (s1.mesh.laths + 4 * j + 1) = (e.getD ((j + 1) % L.length) (0, 0)).1 ∧ s.mesh.fvert (s1.mesh.laths + 4 * j + 1) = (e.getD ((j + 1) % L.length) (0, 0)).2
  vert_c : ∀ j < i, s.mesh.vert (s1.mesh.laths + 4 * j + 2) = f.1 ∧ s.mesh.fvert (s1.mesh.laths + 4 * j + 2) = f.2
  vert_d : ∀ j < i, s.mesh.vert (s1.mesh.laths + 4 * j + 3) = (e.getD j (0, 0)).1 ∧ s.mesh.fvert (s1.mesh.laths + 4 * j + 3) = (e.getD j (0, 0)).2
  len : s.mesh.atVert.length = s1.mesh.atVert.length
  atv : ∀ u x, x ∈ s.mesh.atVert.getD u [] ↔ x ∈ s1.mesh.atVert.getD u [] ∨ (s1.mesh.laths ≤ x ∧ x < s1.mesh.laths + 4 * i ∧ s.mesh.vert x = u)
  parent_old : ∀ l < s1.mesh.laths, s.parent l = s1.parent l
  parent_new : ∀ j < i, ∀ r < 4, s.parent (s1.mesh.laths + 4 * j + r) = some (L.getD j 0)
  child_old : ∀ l < s1.mesh.laths, (∀ j < i, ¬ Fan m0 (L.getD j 0) l) → s.child l = s1.child l
  child_at : ∀ j < i, ∀ l, Fan m0 (L.getD j 0) l → s.child l = some (s1.mesh.laths + 4 * j)
  child_new : ∀ l, s1.mesh.laths ≤ l → l < s1.mesh.laths + 4 * i → s.child l = none
  mid_old : ∀ l < s1.mesh.laths, (∀ j < i, L.getD j 0 ≠ l) → s.mid l = s1.mid l
  mid_at : ∀ j < i, s.mid (L.getD j 0) = some (s1.mesh.laths + 4 * j + 3)
  mid_new : ∀ l, s1.mesh.laths ≤ l → l < s1.mesh.laths + 4 * i → s.mid l = none
  face_old : ∀ l < s1.mesh.laths, s.face l = s1.face l
  face_new : ∀ l, s1.mesh.laths ≤ l → l < s1.mesh.laths + 4 * i → s.face l = none
  hard_old : ∀ l < s1.mesh.laths, s.hard l = s1.hard l
  hard_new : ∀ j < i, s.hard (s1.mesh.laths + 4 * j) = sq (s1.hard (L.getD j 0)) ∧ s.hard (s1.mesh.laths + 4 * j + 1) = sq (s1.hard (L.getD ((j + 1) % L.length) 0)) ∧
    s.hard (s1.mesh.laths + 4 * j + 2) = 0 ∧ s.hard (s1.mesh.laths + 4 * j + 3) = 0
  corner_old : ∀ l < s1.mesh.laths, s.corner l = s1.corner l
  corner_new : ∀ j < i, s.corner (s1.mesh.laths + 4 * j) = pos (s1.corner (L.getD j 0)) ∧ s.corner (s1.mesh.laths + 4 * j + 1) = pos (s1.corner (L.getD j 0)) ∧
    s.corner (s1.mesh.laths + 4 * j + 2) = 0 ∧ s.corner (s1.mesh.laths + 4 * j + 3) = 0
  val : s.val = s1.val
  fval : s.fval = s1.fval
  fcount : s.fcount = s1.fcount

theorem Quads.zero (m0 : Mesh) (s1 : State K E) (L : List Nat) (v e : List (Nat × Nat)) (f : Nat × Nat) : Quads m0 s1 L v e f 0 s1 := by
  constructor <;> (try intros) <;> first | rfl | omega | skip
  rename_i u x
  constructor
  · exact .inl
  · rintro (h | h)
    · exact h
    · omega

theorem Quads.sub {m0 : Mesh} {s1 : State K E} {L : List Nat} {v e : List (Nat × Nat)} {f : Nat × Nat} {i : Nat} {s : State K E} (Q : Quads m0 s1 L v e f i s)
    (X : Sub m0 s1.mesh) : Sub m0 s.mesh := by
  have hle := X.le
  have := Q.laths
  exact ⟨by omega, fun l hl => (Q.cf_old l (by omega)).trans (X.cf l hl), fun l hl => (Q.cv_old l (by omega)).trans (X.cv l hl), fun l hl => (Q.vert_old l (by omega)).trans (X.vert l hl),
    fun l hl => (Q.fvert_old l (by omega)).trans (X.fvert l hl)⟩

theorem addQuad_sub {m0 m : Mesh} (X : Sub m0 m) (v e e' f : Nat × Nat) : Sub m0 (addQuad m v e e' f) := by
  have hle := X.le
  refine ⟨by simp only [addQuad]; omega, ?_, ?_, ?_, ?_⟩ <;> intro l hl
  · simp only [addQuad]; rw [if_pos (by omega)]; exact X.cf l hl
  · simp only [addQuad]; rw [if_pos (by omega)]; exact X.cv l hl
  · simp only [addQuad]; rw [if_pos (by omega)]; exact X.vert l hl
  · simp only [addQuad]; rw [if_pos (by omega)]; exact X.fvert l hl

theorem Qve_quad {m : Mesh} (v e e' f : Nat × Nat) : (addQuad m v e e' f).Qve m.laths = some [m.laths, m.laths + 1] := by
  have h1 : (addQuad m v e e' f).cv m.laths = none := by simp [addQuad]
  have h2 : (addQuad m v e e' f).cf m.laths = m.laths + 1 := by simp [addQuad]
  have h3 : (addQuad m v e e' f).cv (m.laths + 1) = none := by simp [addQuad]
  have h4 : (addQuad m v e e' f).ccv m.laths = none := by simp [Mesh.ccv, Mesh.ec, h2, h3]
  simp [Mesh.Qve, h1, h4, Mesh.fwd, Mesh.bwd, h2]

theorem addQuad_at {m : Mesh} {v e e' f : Nat × Nat} (hv : v.1 < m.atVert.length) (he : e.1 < m.atVert.length) (he' : e'.1 < m.atVert.length) (hf : f.1 < m.atVert.length) (u x : Nat) :
    x ∈ (addQuad m v e e' f).atVert.getD u [] ↔ x ∈ m.atVert.getD u [] ∨ (m.laths ≤ x ∧ x < m.laths + 4 ∧ (addQuad m v e e' f).vert x = u) := by
  have hl : ∀ (A : List (List Nat)) (j y : Nat) , (A.modify j (· ++ [y])).length = A.length := by simp
  have hg : ∀ (A : List (List Nat)) (j y : Nat), j < A.length → (x ∈ (A.modify j (· ++ [y])).getD u [] ↔ x ∈ A.getD u [] ∨ (x = y ∧ j = u)) := by
    intro A j y hj
    rw [getD_modify A j u _ hj]
    by_cases h : u = j
    · subst h; simp
    · rw [if_neg h]
      constructor
      · exact .inl
      · rintro (h' | ⟨_, h'⟩)
        · exact h'
        · exact absurd h'.symm h
  have : (addQuad m v e e' f).atVert = (((m.atVert.modify v.1 (· ++ [m.laths])).modify e'.1 (· ++ [m.laths + 1])).modify f.1 (· ++ [m.laths + 2])).modify e.1 (· ++ [m.laths + 3]) := rfl
  rw [this, hg _ _ _ (by simpa using he), hg _ _ _ (by simpa using hf), hg _ _ _ (by simpa using he'), hg _ _ _ hv]
  have w0 : (addQuad m v e e' f).vert m.laths = v.1 := by simp [addQuad]
  have w1 : (addQuad m v e e' f).vert (m.laths + 1) = e'.1 := by simp [addQuad]
  have w2 : (addQuad m v e e' f).vert (m.laths + 2) = f.1 := by simp [addQuad]
  have w3 : (addQuad m v e e' f).vert (m.laths + 3) = e.1 := by simp [addQuad]
  constructor
  · rintro ((((h | ⟨rfl, h⟩) | ⟨rfl, h⟩) | ⟨rfl, h⟩) | ⟨rfl, h⟩)
    · exact .inl h
    · exact .inr ⟨by omega, by omega, by rw [w0]; exact h⟩
    · exact .inr ⟨by omega, by omega, by rw [w1]; exact h⟩
    · exact .inr ⟨by omega, by omega, by rw [w2]; exact h⟩
    · exact .inr ⟨by omega, by omega, by rw [w3]; exact h⟩
  · rintro (h | ⟨h1, h2, h⟩)
    · exact .inl (.inl (.inl (.inl h)))
    · have : x = m.laths ∨ x = m.laths + 1 ∨ x = m.laths + 2 ∨ x = m.laths + 3 := by omega
      rcases this with rfl | rfl | rfl | rfl
      · rw [w0] at h; exact .inl (.inl (.inl (.inr ⟨rfl, h⟩)))
      · rw [w1] at h; exact .inl (.inl (.inr ⟨rfl, h⟩))
      · rw [w2] at h; exact .inl (.inr ⟨rfl, h⟩)
      · rw [w3] at h; exact .inr ⟨rfl, h⟩

theorem quad_ok {m0 : Mesh} (O : Ok m0) {s1 : State K E} (X : Sub m0 s1.mesh) {L : List Nat} {v e : List (Nat × Nat)} {f : Nat × Nat} (hL : ∀ i < L.length, L.getD i 0 < m0.laths)
    (hsep : ∀ i < L.length, ∀ j < L.length, Fan m0 (L.getD i 0) (L.getD j 0) → i = j) (hv : ∀ i < L.length, (v.getD i (0, 0)).1 < s1.mesh.atVert.length)
    (he : ∀ i < L.length, (e.getD i (0, 0)).1 < s1.mesh.atVert.length) (hf : f.1 < s1.mesh.atVert.length) {i : Nat} (hi : i < L.length) {s : State K E} (Q : Quads m0 s1 L v e f i s) :
    ∃ s', quad K s i (L.getD i 0) (L.getD ((i + 1) % L.length) 0) (v.getD i (0, 0)) (e.getD i (0, 0)) (e.getD ((i + 1) % L.length) (0, 0)) f = some (s', s1.mesh.laths + 4 * i + (3 * i) % 4) ∧
      Quads m0 s1 L v e f (i + 1) s' := by
  have hi' : (i + 1) % L.length < L.length := Nat.mod_lt _ (by omega)
  have hle := X.le
  have hla := Q.laths
  obtain ⟨a, ha⟩ : ∃ a, a = s.mesh.laths := ⟨_, rfl⟩
  obtain ⟨x, hx⟩ : ∃ x, x = L.getD i 0 := ⟨_, rfl⟩
  obtain ⟨y, hy⟩ : ∃ y, y = L.getD ((i + 1) % L.length) 0 := ⟨_, rfl⟩
  obtain ⟨b, hb⟩ : ∃ b, b = s1.mesh.laths := ⟨_, rfl⟩
  have hxN : x < m0.laths := hx ▸ hL i hi
  have hyN : y < m0.laths := hy ▸ hL _ hi'
  obtain ⟨m, hm⟩ : ∃ m, m = addQuad s.mesh (v.getD i (0, 0)) (e.getD i (0, 0)) (e.getD ((i + 1) % L.length) (0, 0)) f := ⟨_, rfl⟩
  have hX : Sub m0 m := hm ▸ addQuad_sub (Q.sub X) _ _ _ _
  obtain ⟨F, hF, _, _, _, hFm, _⟩ := O.fan_all hxN
  have hQvf : m.Qvf x = some F := ((hX.around O hxN).1).trans hF
  have hab : a = b + 4 * i := by omega
  have ml : m.laths = a + 4 := by rw [hm, ha]; rfl
  have mcf : ∀ l, m.cf l = if l < a then s.mesh.cf l else if l = a + 3 then a else l + 1 := fun l => by rw [hm, ha]; rfl
  have mcv : ∀ l, m.cv l = if l < a then s.mesh.cv l else none := fun l => by rw [hm, ha]; rfl
  have mv : ∀ l, m.vert l = if l < a then s.mesh.vert l else if l = a then (v.getD i (0, 0)).1 else if l = a + 1 then (e.getD ((i + 1) % L.length) (0, 0)).1 else if l = a + 2 then f.1 else
      (e.getD i (0, 0)).1 := fun l => by rw [hm, ha]; rfl
  have mf : ∀ l, m.fvert l = if l < a then s.mesh.fvert l else if l = a then (v.getD i (0, 0)).2 else if l = a + 1 then (e.getD ((i + 1) % L.length) (0, 0)).2 else if l = a + 2 then f.2 else
      (e.getD i (0, 0)).2 := fun l => by rw [hm, ha]; rfl
  have mat : ∀ u z, z ∈ m.atVert.getD u [] ↔ z ∈ s.mesh.atVert.getD u [] ∨ (a ≤ z ∧ z < a + 4 ∧ m.vert z = u) := fun u z => by
    rw [hm, ha]
    exact addQuad_at (by rw [Q.len]; exact hv i hi) (by rw [Q.len]; exact he i hi) (by rw [Q.len]; exact he _ hi') (by rw [Q.len]; exact hf) u z
  have mlen : m.atVert.length = s1.mesh.atVert.length := by rw [hm, ← Q.len]; simp [addQuad]
  have hcf4 : ∀ r < 4, m.cf (a + r) = a + (r + 1) % 4 := by
    intro r hr
    rw [mcf, if_neg (by omega)]
    by_cases h3 : r = 3
    · subst h3; simp
    · rw [if_neg (by omega)]; omega
  have hcv4 : ∀ r < 4, m.cv (a + r) = none := by
    intro r hr
    rw [mcv, if_neg (by omega)]
  have ht : turn m i a = some (a + (3 * i) % 4) := by
    have := turn_quad (m := m) (a := a) (fun r hr => ccf_quad (by omega) hcf4 hcv4 hr) i 0 (by omega)
    simpa using this
  have hQve : m.Qve a = some [a, a + 1] := by rw [hm, ha]; exact Qve_quad _ _ _ _
  -- the corners
  obtain ⟨co, hco, hco1, hco2⟩ : ∃ co : Nat → K, (if 0 < s.corner x then addSharpCorner K m (fun l => if l < a then s.corner l else 0) a (s.corner x) else some (fun l => if l < a then s.corner l else 0)) = some co ∧
      (∀ l < a, co l = s.corner l) ∧ co a = pos (s.corner x) ∧ co (a + 1) = pos (s.corner x) ∧ co (a + 2) = 0 ∧ co (a + 3) = 0 := by
    by_cases h : 0 < s.corner x
    · rw [if_pos h]
      refine ⟨fun z => if [a, a + 1].contains z then s.corner x else if z < a then s.corner z else 0, by simp only [addSharpCorner, hQve, Option.map_some], ?_, ?_, ?_, ?_, ?_⟩
      · intro l hl
        have hn : ¬ (l = a ∨ l = a + 1) := by omega
        simp [hn, hl]
      · simp [pos, h]
      · simp [pos, h]
      · simp
      · simp
    · rw [if_neg h]
      refine ⟨_, rfl, ?_, ?_, ?_, ?_, ?_⟩
      · intro l hl; rw [if_pos hl]
      · simp [pos, h]
      · simp [pos, h]
      · simp
      · simp
  refine ⟨{ s with
      mesh := { m with facets := m.facets ++ [a + (3 * i) % 4] }
      parent := fun l => if l < a then s.parent l else some x
      child := fun l => if F.contains l then some a else if l < a then s.child l else none
      mid := fun l => if l = x then some (a + 3) else if l < a then s.mid l else none
      face := fun l => if l < a then s.face l else none
      hard := fun l => if l < a then s.hard l else if l = a ∧ 0 < s.hard x then s.hard x * s.hard x else if l = a + 1 ∧ 0 < s.hard y then s.hard y * s.hard y else 0
      corner := co }, ?_, ?_⟩
  · simp only [quad]
    rw [← hm, ← hx, ← hy, ← ha, ← hb, hQvf]
    simp only [Option.bind_some]
    rw [hco]
    simp only [Option.bind_some, ht, Option.map_some]
    rw [hab]
  have hxo : ∀ j < i, ∀ l, Fan m0 x l → ¬ Fan m0 (L.getD j 0) l := by
    intro j hj l h1 h2
    have := hsep j (by omega) i hi (.trans _ _ _ h2 (.symm _ _ (hx ▸ h1)))
    omega
  have hFlt : ∀ l, l ∈ F → l < b := fun l hl => by
    have := (O.fan_lt ((hFm l).1 hl)).1 hxN
    omega
  have hcases : ∀ j, j < i + 1 → j < i ∨ j = i := fun j hj => by omega
  constructor
  · show m.laths = _
    omega
  · intro l hl
    show m.cf l = _
    rw [mcf, if_pos (by omega)]
    exact Q.cf_old l hl
  · intro l hl
    show m.cv l = _
    rw [mcv, if_pos (by omega)]
    exact Q.cv_old l hl
  · intro l hl
    show m.vert l = _
    rw [mv, if_pos (by omega)]
    exact Q.vert_old l hl
  · intro l hl
    show m.fvert l = _
    rw [mf, if_pos (by omega)]
    exact Q.fvert_old l hl
  · intro j hj r hr
    show m.cf _ = _
    rcases hcases j hj with hj | rfl
    · rw [mcf, if_pos (by omega)]; exact Q.cf_new j hj r hr
    · rw [← hb, ← hab]; exact hcf4 r hr
  · intro j hj r hr
    show m.cv _ = _
    rcases hcases j hj with hj | rfl
    · rw [mcv, if_pos (by omega)]; exact Q.cv_new j hj r hr
    · rw [← hb, ← hab]; exact hcv4 r hr
  · intro j hj
    show m.vert _ = _ ∧ m.fvert _ = _
    rcases hcases j hj with hj | rfl
    · rw [mv, mf, if_pos (by omega), if_pos (by omega)]; exact Q.vert_a j hj
    · rw [← hb, ← hab, mv, mf]; simp
  · intro j hj
    show m.vert _ = _ ∧ m.fvert _ = _
    rcases hcases j hj with hj | rfl
    · rw [mv, mf, if_pos (by omega), if_pos (by omega)]; exact Q.vert_b j hj
    · rw [← hb, ← hab, mv, mf]; simp
  · intro j hj
    show m.vert _ = _ ∧ m.fvert _ = _
    rcases hcases j hj with hj | rfl
    · rw [mv, mf, if_pos (by omega), if_pos (by omega)]; exact Q.vert_c j hj
    · rw [← hb, ← hab, mv, mf]; simp
  · intro j hj
    show m.vert _ = _ ∧ m.fvert _ = _
    rcases hcases j hj with hj | rfl
    · rw [mv, mf, if_pos (by omega), if_pos (by omega)]; exact Q.vert_d j hj
    · rw [← hb, ← hab, mv, mf]; simp
  · exact mlen
  · intro u z
    show z ∈ m.atVert.getD u [] ↔ _ ∨ (_ ∧ _ ∧ m.vert z = u)
    rw [mat, Q.atv]
    constructor
    · rintro ((h | ⟨h1, h2, h3⟩) | ⟨h1, h2, h3⟩)
      · exact .inl h
      · exact .inr ⟨h1, by omega, by rw [mv, if_pos (by omega)]; exact h3⟩
      · exact .inr ⟨by omega, by omega, h3⟩
    · rintro (h | ⟨h1, h2, h3⟩)
      · exact .inl (.inl h)
      · by_cases hz : z < a
        · rw [mv, if_pos hz] at h3; exact .inl (.inr ⟨h1, by omega, h3⟩)
        · exact .inr ⟨by omega, by omega, h3⟩
  · intro l hl
    show (if l < a then s.parent l else some x) = _
    rw [if_pos (by omega)]; exact Q.parent_old l hl
  · intro j hj r hr
    show (if _ < a then s.parent _ else some x) = _
    rcases hcases j hj with hj | rfl
    · rw [if_pos (by omega)]; exact Q.parent_new j hj r hr
    · rw [if_neg (by omega), hx]
  · intro l hl hno
    show (if F.contains l then some a else if l < a then s.child l else none) = _
    have : l ∉ F := fun h => hno i (by omega) (by rw [← hx]; exact (hFm l).1 h)
    rw [if_neg (by simpa using this), if_pos (by omega)]
    exact Q.child_old l hl fun j hj => hno j (by omega)
  · intro j hj l hl
    show (if F.contains l then some a else if l < a then s.child l else none) = _
    rcases hcases j hj with hj | rfl
    · have : l ∉ F := fun h => hxo j hj l ((hFm l).1 h) hl
      have hlN := (O.fan_lt hl).1 (hL j (by omega))
      rw [if_neg (by simpa using this), if_pos (by omega)]
      exact Q.child_at j hj l hl
    · have : l ∈ F := (hFm l).2 (by rw [hx]; exact hl)
      rw [if_pos (by simpa using this), hab, hb]
  · intro l h1 h2
    show (if F.contains l then some a else if l < a then s.child l else none) = _
    have : l ∉ F := fun h => by have := hFlt l h; omega
    rw [if_neg (by simpa using this)]
    by_cases h : l < a
    · rw [if_pos h]; exact Q.child_new l h1 (by omega)
    · rw [if_neg h]
  · intro l hl hno
    show (if l = x then some (a + 3) else if l < a then s.mid l else none) = _
    rw [if_neg (fun h => hno i (by omega) (by rw [← hx, h])), if_pos (by omega)]
    exact Q.mid_old l hl fun j hj => hno j (by omega)
  · intro j hj
    show (if L.getD j 0 = x then some (a + 3) else if L.getD j 0 < a then s.mid (L.getD j 0) else none) = _
    rcases hcases j hj with hj | rfl
    · have hne : L.getD j 0 ≠ x := fun h => hxo j hj x (.refl _) (by rw [h]; exact .refl _)
      have := hL j (by omega)
      rw [if_neg hne, if_pos (by omega)]
      exact Q.mid_at j hj
    · rw [if_pos hx.symm, hab, hb]
  · intro l h1 h2
    show (if l = x then some (a + 3) else if l < a then s.mid l else none) = _
    rw [if_neg (by omega)]
    by_cases h : l < a
    · rw [if_pos h]; exact Q.mid_new l h1 (by omega)
    · rw [if_neg h]
  · intro l hl
    show (if l < a then s.face l else none) = _
    rw [if_pos (by omega)]; exact Q.face_old l hl
  · intro l h1 h2
    show (if l < a then s.face l else none) = _
    by_cases h : l < a
    · rw [if_pos h]; exact Q.face_new l h1 (by omega)
    · rw [if_neg h]
  · intro l hl
    show (if l < a then s.hard l else _) = _
    rw [if_pos (by omega)]; exact Q.hard_old l hl
  · intro j hj
    obtain ⟨hd, hhd⟩ : ∃ hd : Nat → K, hd = fun l => if l < a then s.hard l else if l = a ∧ 0 < s.hard x then s.hard x * s.hard x else if l = a + 1 ∧ 0 < s.hard y then s.hard y * s.hard y else 0 := ⟨_, rfl⟩
    show (fun l => if l < a then s.hard l else if l = a ∧ 0 < s.hard x then s.hard x * s.hard x else if l = a + 1 ∧ 0 < s.hard y then s.hard y * s.hard y else 0) _ = _ ∧
      (fun l => if l < a then s.hard l else if l = a ∧ 0 < s.hard x then s.hard x * s.hard x else if l = a + 1 ∧ 0 < s.hard y then s.hard y * s.hard y else 0) _ = _ ∧
      (fun l => if l < a then s.hard l else if l = a ∧ 0 < s.hard x then s.hard x * s.hard x else if l = a + 1 ∧ 0 < s.hard y then s.hard y * s.hard y else 0) _ = _ ∧
      (fun l => if l < a then s.hard l else if l = a ∧ 0 < s.hard x then s.hard x * s.hard x else if l = a + 1 ∧ 0 < s.hard y then s.hard y * s.hard y else 0) _ = _
    rw [← hhd]
    rcases hcases j hj with hj | rfl
    · have h1 : ∀ l < a, hd l = s.hard l := fun l hl => by rw [hhd]; simp only [if_pos hl]
      rw [h1 _ (by omega), h1 _ (by omega), h1 _ (by omega), h1 _ (by omega)]
      exact Q.hard_new j hj
    · rw [← hb, ← hab, ← hx, ← hy, ← Q.hard_old x (by omega), ← Q.hard_old y (by omega), hhd]
      simp [sq]
  · intro l hl
    show co l = _
    rw [hco1 l (by omega)]; exact Q.corner_old l hl
  · intro j hj
    show co _ = _ ∧ co _ = _ ∧ co _ = _ ∧ co _ = _
    rcases hcases j hj with hj | rfl
    · rw [hco1 _ (by omega), hco1 _ (by omega), hco1 _ (by omega), hco1 _ (by omega)]
      exact Q.corner_new j hj
    · rw [← hb, ← hab, ← hx, ← Q.corner_old x (by omega)]
      exact hco2
  · exact Q.val
  · exact Q.fval
  · exact Q.fcount

theorem quads_ok {m0 : Mesh} (O : Ok m0) {s1 : State K E} (X : Sub m0 s1.mesh) {L : List Nat} {v e : List (Nat × Nat)} {f : Nat × Nat} (hL : ∀ i < L.length, L.getD i 0 < m0.laths)
    (hsep : ∀ i < L.length, ∀ j < L.length, Fan m0 (L.getD i 0) (L.getD j 0) → i = j) (hv : ∀ i < L.length, (v.getD i (0, 0)).1 < s1.mesh.atVert.length)
    (he : ∀ i < L.length, (e.getD i (0, 0)).1 < s1.mesh.atVert.length) (hf : f.1 < s1.mesh.atVert.length) :
    ∀ (k i : Nat) (s : State K E), i + k = L.length → Quads m0 s1 L v e f i s →
      ∃ s', quads K L v e f k i s = some (s', (List.range' i k).map fun j => s1.mesh.laths + 4 * j + (3 * j) % 4) ∧ Quads m0 s1 L v e f L.length s'
  | 0, i, s, hi, Q => ⟨s, rfl, by have : i = L.length := by omega
                                  exact this ▸ Q⟩
  | k + 1, i, s, hi, Q => by
    obtain ⟨s', e1, Q'⟩ := quad_ok O X hL hsep hv he hf (by omega) Q
    obtain ⟨s'', e2, Q''⟩ := quads_ok O X hL hsep hv he hf k (i + 1) s' (by omega) Q'
    refine ⟨s'', ?_, Q''⟩
    simp only [quads, e1, Option.bind_some, e2, Option.map_some, List.range'_succ, List.map_cons]

end
end Verif.Geom.Subd
