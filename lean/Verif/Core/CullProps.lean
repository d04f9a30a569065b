import Verif.Core.CullLemmas
import Verif.Core.DofProps
import Mathlib.Tactic.Tauto

/-! # C66: bounds and culling -/

namespace Verif.Core.Cull

open Verif.Math.Matrix4

variable {K : Type} [Field K] [LinearOrder K] [IsStrictOrderedRing K]

/-! ## Boxes -/

/-- **C66.** If the corners of a box are in front of the eye, the transformed box exists, contains the image of every point of the
box, and no side of it can be moved inwards (for numbers up to `big`). -/
theorem C66_transform (big : K) (m : Mat K) (hm : Sound m) (b : Box K) (hb : ∀ i, b.lo i ≤ b.hi i)
    (hw : ∀ p, (∀ i, p i = b.lo i ∨ p i = b.hi i) → 0 < weight m p) :
    ∃ r, transform big m b = some r ∧ (∀ p, In p b → ∃ q, apply3 m p = some q ∧ In q r) ∧
      ((∀ p q, In p b → apply3 m p = some q → ∀ i, -big ≤ q i ∧ q i ≤ big) →
        ∀ i, (∃ p q, In p b ∧ apply3 m p = some q ∧ r.lo i = q i) ∧ ∃ p q, In p b ∧ apply3 m p = some q ∧ r.hi i = q i) := by
  have hw' : ∀ c ∈ corners b, 0 < weight m c := fun c hc => hw c (corner_spec hc)
  have hin : ∀ c ∈ corners b, In c b := by
    intro c hc i
    rcases corner_spec hc i with h | h
    · rw [h]; exact ⟨le_refl _, hb i⟩
    · rw [h]; exact ⟨hb i, le_refl _⟩
  obtain ⟨r, e, h1, h2⟩ := transform_spec big m hm b hw'
  have hlo : In b.lo b := fun i => ⟨le_refl _, hb i⟩
  obtain ⟨q0, e0, m0⟩ := h1 b.lo hlo
  refine ⟨r, e, h1, fun hbig i => ⟨?_, ?_⟩⟩
  · rcases (h2 i).1 with h | ⟨c, hc, q, hq, h⟩
    · exact ⟨b.lo, q0, hlo, e0, le_antisymm (m0 i).1 (h ▸ (hbig b.lo q0 hlo e0 i).2)⟩
    · exact ⟨c, q, hin c hc, hq, h⟩
  · rcases (h2 i).2 with h | ⟨c, hc, q, hq, h⟩
    · exact ⟨b.lo, q0, hlo, e0, le_antisymm (h ▸ (hbig b.lo q0 hlo e0 i).1) (m0 i).2⟩
    · exact ⟨c, q, hin c hc, hq, h⟩

/-- A projection: the depth becomes the weight. -/
def persp : Mat ℚ := ⟨![![1, 0, 0, 0], ![0, 1, 0, 0], ![0, 0, 1, 1], ![0, 0, -1, 0]], false⟩

/-- Not vacuous. -/
example : ((transform 1000 persp ⟨![-1, 0, 1], ![1, 1, 2]⟩).map fun r => ([r.lo 0, r.lo 1, r.lo 2], [r.hi 0, r.hi 1, r.hi 2])) =
    some ([-1, 0, 0], [1, 1, 1 / 2]) := by decide +kernel

/-- A box on both sides of the eye is not transformed to one that contains the images of its points; with corners in the plane of the
eye an assertion fails. -/
theorem C66_transform_violated :
    (∃ (b : Box ℚ) (p q : Pt ℚ), (∀ i, b.lo i ≤ b.hi i) ∧ In p b ∧ apply3 persp p = some q ∧
      ∃ x, (transform 1000 persp b).map (fun r => r.hi 0) = some x ∧ x < q 0) ∧
    (transform 1000 persp ⟨![-1, 0, 0], ![1, 1, 2]⟩).isNone = true := by
  refine ⟨⟨⟨![1, 0, -1], ![1, 1, 1]⟩, ![1, 0, 1 / 2], ![2, 0, -1], by decide +kernel, ?_, by decide +kernel, 1, by decide +kernel,
    by decide +kernel⟩, by decide +kernel⟩
  unfold In
  decide +kernel

omit [Field K] [IsStrictOrderedRing K] in
/-- **C66.** `Encapsulate` gives the least box that contains both. -/
theorem C66_encapsulate (a b c : Box K) (p : Pt K) :
    ((∀ i, (encapsulate a b).lo i ≥ c.lo i ∧ (encapsulate a b).hi i ≤ c.hi i) ↔
      (∀ i, a.lo i ≥ c.lo i ∧ a.hi i ≤ c.hi i) ∧ ∀ i, b.lo i ≥ c.lo i ∧ b.hi i ≤ c.hi i) ∧
    ((∀ i, (encapsulatePt a p).lo i ≥ c.lo i ∧ (encapsulatePt a p).hi i ≤ c.hi i) ↔
      (∀ i, a.lo i ≥ c.lo i ∧ a.hi i ≤ c.hi i) ∧ In p c) := by
  constructor
  · constructor
    · intro h
      exact ⟨fun i => ⟨(h i).1.trans (min_le_left _ _), (le_max_left _ _).trans (h i).2⟩,
        fun i => ⟨(h i).1.trans (min_le_right _ _), (le_max_right _ _).trans (h i).2⟩⟩
    · exact fun h i => ⟨le_min (h.1 i).1 (h.2 i).1, max_le (h.1 i).2 (h.2 i).2⟩
  · constructor
    · intro h
      exact ⟨fun i => ⟨(h i).1.trans (min_le_left _ _), (le_max_left _ _).trans (h i).2⟩,
        fun i => ⟨(h i).1.trans (min_le_right _ _), (le_max_right _ _).trans (h i).2⟩⟩
    · exact fun h i => ⟨le_min (h.1 i).1 (h.2 i).1, max_le (h.1 i).2 (h.2 i).2⟩

omit [Field K] [IsStrictOrderedRing K] in
/-- **C66.** The tests of boxes are what they say. -/
theorem C66_tests (a b : Box K) (p : Pt K) (mn mx : K × K) :
    (contains3D b p = true ↔ In p b) ∧
    (contains2D a b = true ↔ ∀ i : Fin 3, i ≠ 2 → a.lo i ≤ b.lo i ∧ b.hi i ≤ a.hi i) ∧
    (b.lo 0 ≤ b.hi 0 → b.lo 1 ≤ b.hi 1 → mn.1 ≤ mx.1 → mn.2 ≤ mx.2 →
      (intersects b mn mx = true ↔ ∃ x y, (b.lo 0 ≤ x ∧ x ≤ b.hi 0 ∧ mn.1 ≤ x ∧ x ≤ mx.1) ∧ b.lo 1 ≤ y ∧ y ≤ b.hi 1 ∧ mn.2 ≤ y ∧ y ≤ mx.2)) := by
  refine ⟨?_, ?_, fun h0 h1 h2 h3 => ?_⟩
  · unfold contains3D In
    simp only [Bool.and_eq_true, decide_eq_true_eq]
    constructor
    · rintro ⟨⟨h0, h1⟩, h2⟩ i
      fin_cases i
      · exact h0
      · exact h1
      · exact h2
    · exact fun h => ⟨⟨h 0, h 1⟩, h 2⟩
  · unfold contains2D
    simp only [Bool.and_eq_true, decide_eq_true_eq]
    constructor
    · rintro ⟨h0, h1⟩ i hi
      fin_cases i
      · exact h0
      · exact h1
      · exact absurd rfl hi
    · exact fun h => ⟨h 0 (by decide), h 1 (by decide)⟩
  · unfold intersects
    simp only [Bool.not_eq_true', Bool.or_eq_false_iff, decide_eq_false_iff_not, not_lt, gt_iff_lt]
    constructor
    · rintro ⟨⟨⟨a1, a2⟩, a3⟩, a4⟩
      exact ⟨max (b.lo 0) mn.1, max (b.lo 1) mn.2, ⟨le_max_left _ _, max_le h0 a1, le_max_right _ _, max_le a3 h2⟩,
        le_max_left _ _, max_le h1 a2, le_max_right _ _, max_le a4 h3⟩
    · rintro ⟨x, y, ⟨a1, a2, a3, a4⟩, a5, a6, a7, a8⟩
      exact ⟨⟨⟨a3.trans a2, a7.trans a6⟩, a1.trans a4⟩, a5.trans a8⟩

example : intersects (⟨![0, 0, 0], ![1, 1, 1]⟩ : Box ℚ) (1, 1) (2, 2) = true := by decide +kernel

/-! ## Clipping volumes -/

/-- The value of the plane at a point. -/
def Plane.val (pl : Plane K) (p : Pt K) : K := pl.a * p 0 + pl.b * p 1 + pl.c * p 2 + pl.d

omit [IsStrictOrderedRing K] in
theorem sideLoop_spec (pl : Plane K) : ∀ (ps : List (Pt K)) (i o : Bool), ¬ (i = true ∧ o = true) →
    (sideLoop pl ps i o = .inside ↔ (∀ p ∈ ps, 0 < pl.val p) ∧ o = false ∧ (i = true ∨ ps ≠ [])) ∧
    (sideLoop pl ps i o = .outside ↔ (∀ p ∈ ps, pl.val p ≤ 0) ∧ i = false) := by
  intro ps
  induction ps with
  | nil =>
    intro i o h
    cases i <;> cases o <;> simp_all [sideLoop]
  | cons p ps ih =>
    intro i o h
    unfold sideLoop
    by_cases hp : pl.positive p = true
    · have hv : 0 < pl.val p := of_decide_eq_true hp
      rw [if_pos hp]
      cases o
      · rw [if_neg (by simp)]
        obtain ⟨h1, h2⟩ := ih true false (by simp)
        rw [h1, h2]
        constructor
        · simp [hv]
        · simp [hv]
      · rw [if_pos rfl]
        refine ⟨by simp, ?_⟩
        simp only [reduceCtorEq, false_iff]
        intro hc
        exact absurd (hc.1 p (by simp)) (not_le.2 hv)
    · have hv : pl.val p ≤ 0 := not_lt.1 (fun hc => hp (decide_eq_true hc))
      rw [if_neg hp]
      cases i
      · rw [if_neg (by simp)]
        obtain ⟨h1, h2⟩ := ih false true (by simp)
        rw [h1, h2]
        constructor
        · simp [hv]
        · simp [hv]
      · rw [if_pos rfl]
        refine ⟨?_, by simp⟩
        simp only [reduceCtorEq, false_iff]
        intro hc
        exact absurd (hc.1 p (by simp)) (not_lt.2 hv)

omit [Field K] [LinearOrder K] [IsStrictOrderedRing K] in
theorem sideCorners_mem (b : Box K) (p : Pt K) : p ∈ sideCorners b ↔ p ∈ corners b := by
  have el : b.lo = ![b.lo 0, b.lo 1, b.lo 2] := by funext i; fin_cases i <;> rfl
  have eh : b.hi = ![b.hi 0, b.hi 1, b.hi 2] := by funext i; fin_cases i <;> rfl
  unfold sideCorners corners
  simp only [List.mem_cons, List.not_mem_nil, or_false, ← el, ← eh]
  tauto

/-- **C66.** A box is inside of a plane just when all its points have positive values, outside when none has. -/
theorem C66_side (b : Box K) (hb : ∀ i, b.lo i ≤ b.hi i) (pl : Plane K) :
    (whichSideOf b pl = .inside ↔ ∀ p, In p b → 0 < pl.val p) ∧
    (whichSideOf b pl = .outside ↔ ∀ p, In p b → pl.val p ≤ 0) ∧
    (whichSideOf b pl = .both ↔ (∃ p, In p b ∧ 0 < pl.val p) ∧ ∃ p, In p b ∧ pl.val p ≤ 0) := by
  obtain ⟨h1, h2⟩ := sideLoop_spec pl (sideCorners b) false false (by simp)
  have hin : ∀ c ∈ corners b, In c b := by
    intro c hc i
    rcases corner_spec hc i with h | h
    · rw [h]; exact ⟨le_refl _, hb i⟩
    · rw [h]; exact ⟨hb i, le_refl _⟩
  have i1 : whichSideOf b pl = .inside ↔ ∀ p, In p b → 0 < pl.val p := by
    unfold whichSideOf
    rw [h1]
    constructor
    · rintro ⟨h, -⟩ p hp
      obtain ⟨c, hc, hle⟩ := corner_max b (-pl.a) (-pl.b) (-pl.c) (-pl.d) p hp
      have := h c ((sideCorners_mem b c).2 hc)
      unfold Plane.val at this ⊢
      linarith
    · exact fun h => ⟨fun c hc => h c (hin c ((sideCorners_mem b c).1 hc)), rfl, Or.inr (by simp [sideCorners])⟩
  have i2 : whichSideOf b pl = .outside ↔ ∀ p, In p b → pl.val p ≤ 0 := by
    unfold whichSideOf
    rw [h2]
    constructor
    · rintro ⟨h, -⟩ p hp
      obtain ⟨c, hc, hle⟩ := corner_max b pl.a pl.b pl.c pl.d p hp
      have := h c ((sideCorners_mem b c).2 hc)
      unfold Plane.val at this ⊢
      linarith
    · exact fun h => ⟨fun c hc => h c (hin c ((sideCorners_mem b c).1 hc)), rfl⟩
  refine ⟨i1, i2, ?_⟩
  have : whichSideOf b pl = .both ↔ ¬ whichSideOf b pl = .outside ∧ ¬ whichSideOf b pl = .inside := by
    cases whichSideOf b pl <;> simp
  rw [this, i1, i2]
  push Not
  rfl

example : whichSideOf (⟨![0, 0, 0], ![1, 1, 1]⟩ : Box ℚ) (Plane.mk' ![1, 0, 0] ![1, 1, 1]) = .both ∧
    whichSideOf (⟨![0, 0, 0], ![1, 1, 1]⟩ : Box ℚ) (Plane.mk' ![2, 1, 1] ![1, 1, 1]) = .outside := by decide +kernel

/-- **C66.** A plane made from a point and a normal goes through the point, and its positive side is the one to which the normal points. -/
theorem C66_plane (p n q : Pt K) :
    ((Plane.mk' p n).positive q = true ↔ 0 < n 0 * (q 0 - p 0) + n 1 * (q 1 - p 1) + n 2 * (q 2 - p 2)) ∧ (Plane.mk' p n).val p = 0 := by
  have e : ∀ q, (Plane.mk' p n).val q = n 0 * (q 0 - p 0) + n 1 * (q 1 - p 1) + n 2 * (q 2 - p 2) := by
    intro q
    unfold Plane.val Plane.mk' dot
    ring
  refine ⟨?_, by rw [e]; ring⟩
  rw [← e]
  unfold Plane.positive Plane.val
  simp

example : (Plane.mk' (![1, 0, 0] : Pt ℚ) ![1, 1, 1]).positive ![1, 1, 0] = true ∧
    (Plane.mk' (![1, 0, 0] : Pt ℚ) ![1, 1, 1]).positive ![0, 1, 0] = false := by decide +kernel

/-- **C66.** A box is inside of a volume just when all its points are inside of all planes, outside when it is outside of one. -/
theorem C66_volume (b : Box K) (hb : ∀ i, b.lo i ≤ b.hi i) (pls : List (Plane K)) :
    (whereIs b pls = .inside ↔ ∀ pl ∈ pls, ∀ p, In p b → 0 < pl.val p) ∧
    (whereIs b pls = .outside ↔ ∃ pl ∈ pls, ∀ p, In p b → pl.val p ≤ 0) := by
  have gen : ∀ (pls : List (Plane K)) (both : Bool),
      (whereLoop b pls both = .inside ↔ (∀ pl ∈ pls, whichSideOf b pl = .inside) ∧ both = false) ∧
      (whereLoop b pls both = .outside ↔ ∃ pl ∈ pls, whichSideOf b pl = .outside) := by
    intro pls
    induction pls with
    | nil => intro both; cases both <;> simp [whereLoop]
    | cons pl pls ih =>
      intro both
      unfold whereLoop
      cases hs : whichSideOf b pl
      · simp [hs]
      · simp only [hs, List.mem_cons, forall_eq_or_imp, exists_eq_or_imp, reduceCtorEq, false_and, false_or]
        obtain ⟨h1, h2⟩ := ih true
        rw [h1, h2]
        simp
      · simp only [hs, List.mem_cons, forall_eq_or_imp, exists_eq_or_imp, reduceCtorEq, true_and, false_or]
        exact ih both
  obtain ⟨h1, h2⟩ := gen pls false
  unfold whereIs
  rw [h1, h2]
  constructor
  · constructor
    · exact fun h pl hpl => (C66_side b hb pl).1.1 (h.1 pl hpl)
    · exact fun h => ⟨fun pl hpl => (C66_side b hb pl).1.2 (h pl hpl), rfl⟩
  · constructor
    · rintro ⟨pl, hpl, h⟩
      exact ⟨pl, hpl, (C66_side b hb pl).2.1.1 h⟩
    · rintro ⟨pl, hpl, h⟩
      exact ⟨pl, hpl, (C66_side b hb pl).2.1.2 h⟩

example : whereIs (⟨![0, 0, 0], ![1, 1, 1]⟩ : Box ℚ) [⟨1, 0, 0, 1⟩, ⟨0, 1, 0, -2⟩] = .outside := by decide +kernel

/-! ## Motion -/

/-- The transformations of a frame are affine and can be inverted. -/
def Good (f : Frame K) : Prop := ∀ t, Sound (f.obj t) ∧ Sound (f.cam t) ∧ Affine (f.obj t) ∧ Affine (f.cam t) ∧
  (f.obj t).m.det ≠ 0 ∧ (f.cam t).m.det ≠ 0

theorem good_inverse (m : Mat K) (hm : Sound m) (hd : m.m.det ≠ 0) : ∃ n, inverse m = some n := by
  cases h : inverse m with
  | some n => exact ⟨n, rfl⟩
  | none => exact absurd ((C60_inverse m hm).1.1 h) hd

theorem objectToCamera_good (f : Frame K) (hf : Good f) (t : K) : Sound (objectToCamera f t) ∧ Affine (objectToCamera f t) := by
  obtain ⟨h1, h2, h3, h4, -, -⟩ := hf t
  exact ⟨(C60_product _ _ h2 h1).2.1, affine_mul _ _ h2 h1 h4 h3⟩

theorem cameraToObject_good (f : Frame K) (hf : Good f) (t : K) : ∃ m, cameraToObject f t = some m ∧ Sound m ∧ Affine m ∧
    m.m * (objectToCamera f t).m = 1 ∧ (objectToCamera f t).m * m.m = 1 := by
  obtain ⟨h1, h2, h3, h4, h5, h6⟩ := hf t
  obtain ⟨a, ha⟩ := good_inverse _ h2 h6
  obtain ⟨b, hb⟩ := good_inverse _ h1 h5
  obtain ⟨sa, aa, ea1, ea2⟩ := affine_inverse _ _ h2 h4 ha
  obtain ⟨sb, ab, eb1, eb2⟩ := affine_inverse _ _ h1 h3 hb
  refine ⟨mul b a, ?_, (C60_product _ _ sb sa).2.1, affine_mul _ _ sb sa ab aa, ?_, ?_⟩
  · unfold cameraToObject
    rw [ha, hb]
    rfl
  · rw [(C60_product _ _ sb sa).1, objectToCamera, (C60_product _ _ h2 h1).1, Matrix.mul_assoc, ← Matrix.mul_assoc b.m, eb1, Matrix.one_mul, ea1]
  · rw [(C60_product _ _ sb sa).1, objectToCamera, (C60_product _ _ h2 h1).1, Matrix.mul_assoc, ← Matrix.mul_assoc _ a.m, ea2, Matrix.one_mul, eb2]

/-- **C66.** The points of a grid are at each key where object and camera take them; assumed is that the camera is, at the opening of
the shutter, where it is at the time 0. -/
theorem C66_place_partial (f : Frame K) (hf : Good f) (shutter k : K) (hc : f.cam shutter = f.cam 0) (p P : Pt K)
    (hP : stored f shutter p = some P) :
    ∃ w, apply3 (f.obj k) p = some w ∧ gridAt f shutter k P = apply3 (f.cam k) w := by
  obtain ⟨h1, h2, h3, h4, h5, h6⟩ := hf k
  obtain ⟨g1, g2, g3, g4, g5, g6⟩ := hf shutter
  obtain ⟨m, hm, sm, am, e1, e2⟩ := cameraToObject_good f hf shutter
  have hoc : apply3 (objectToCamera f shutter) p = some P := by
    unfold stored at hP
    rw [← hc] at hP
    obtain ⟨w, hw, hw'⟩ := Option.bind_eq_some_iff.1 hP
    unfold objectToCamera
    rw [(C60_points (f.cam shutter) (f.obj shutter) g2 g1 p).2.2 w hw]
    exact hw'
  obtain ⟨so, ao⟩ := objectToCamera_good f hf shutter
  have hback : apply3 m P = some p := apply3_cancel _ _ so sm ao am e2 p P hoc
  refine ⟨_, apply3_affine (f.obj k) h1 h3 p, ?_⟩
  unfold gridAt
  rw [hm]
  show (apply3 m P).bind _ = _
  rw [hback]
  show apply3 (objectToCamera f k) p = _
  unfold objectToCamera
  rw [(C60_points (f.cam k) (f.obj k) h2 h1 p).2.2 _ (apply3_affine (f.obj k) h1 h3 p)]

theorem adjustLoop_spec (big : K) (f : Frame K) (hf : Good f) (b0 : Box K) : ∀ (ks : List K) (acc : Box K),
    ∃ r, adjustLoop big f b0 ks acc = some r ∧ (∀ i, r.lo i ≤ acc.lo i ∧ acc.hi i ≤ r.hi i) ∧
      ∀ k ∈ ks, ∀ p, In p b0 → ∃ q, apply3 (objectToCamera f k) p = some q ∧ In q r := by
  intro ks
  induction ks with
  | nil => intro acc; exact ⟨acc, rfl, fun i => ⟨le_refl _, le_refl _⟩, fun k h => absurd h (by simp)⟩
  | cons k ks ih =>
    intro acc
    obtain ⟨so, ao⟩ := objectToCamera_good f hf k
    obtain ⟨bt, et, ht, -⟩ := transform_spec big (objectToCamera f k) so b0 (fun c _ => by rw [weight_affine _ ao]; exact one_pos)
    obtain ⟨r, er, h1, h2⟩ := ih (encapsulate acc bt)
    refine ⟨r, ?_, fun i => ⟨(h1 i).1.trans (min_le_left _ _), (le_max_left _ _).trans (h1 i).2⟩, ?_⟩
    · unfold adjustLoop
      rw [et]
      exact er
    · intro k' hk' p hp
      rcases List.mem_cons.1 hk' with rfl | hk'
      · obtain ⟨q, hq, hin⟩ := ht p hp
        exact ⟨q, hq, fun i => ⟨(h1 i).1.trans ((min_le_right _ _).trans (hin i).1), ((hin i).2.trans (le_max_right _ _)).trans (h1 i).2⟩⟩
      · exact h2 k' hk' p hp

/-- **C66.** The bound of a moving surface contains its points at all keys and on the lines between them; assumed is that object and
camera are, at the opening of the shutter, where they are at the time 0. -/
theorem C66_motion_partial (big : K) (f : Frame K) (hf : Good f) (shutter : K) (hc : f.cam shutter = f.cam 0) (ho : f.obj shutter = f.obj 0)
    (keys : List K) (hk : 1 < keys.length) (b : Box K) :
    ∃ r, adjust big f keys b = some r ∧ (∀ p, In p b → In p r) ∧
      ∀ P, In P b → ∀ k₁ ∈ keys, ∀ k₂ ∈ keys, ∃ q₁ q₂, gridAt f shutter k₁ P = some q₁ ∧ gridAt f shutter k₂ P = some q₂ ∧
        ∀ w : K, 0 ≤ w → w ≤ 1 → In (fun i => q₁ i + w * (q₂ i - q₁ i)) r := by
  have hs : cameraToObject f shutter = cameraToObject f 0 := by unfold cameraToObject; rw [hc, ho]
  obtain ⟨m, hm, sm, am, -, -⟩ := cameraToObject_good f hf 0
  obtain ⟨b0, e0, h0, -⟩ := transform_spec big m sm b (fun c _ => by rw [weight_affine _ am]; exact one_pos)
  obtain ⟨r, er, h1, h2⟩ := adjustLoop_spec big f hf b0 keys b
  refine ⟨r, ?_, fun p hp i => ⟨(h1 i).1.trans (hp i).1, (hp i).2.trans (h1 i).2⟩, ?_⟩
  · unfold adjust
    rw [if_pos hk, hm]
    show (transform big m b).bind _ = _
    rw [e0]
    exact er
  · intro P hP k₁ hk₁ k₂ hk₂
    obtain ⟨o, ho', hin⟩ := h0 P hP
    have key : ∀ k ∈ keys, ∃ q, gridAt f shutter k P = some q ∧ In q r := by
      intro k hk
      obtain ⟨q, hq, hqr⟩ := h2 k hk o hin
      refine ⟨q, ?_, hqr⟩
      unfold gridAt
      rw [hs, hm]
      show (apply3 m P).bind _ = _
      rw [ho']
      exact hq
    obtain ⟨q₁, e₁, i₁⟩ := key k₁ hk₁
    obtain ⟨q₂, e₂, i₂⟩ := key k₂ hk₂
    refine ⟨q₁, q₂, e₁, e₂, fun w w0 w1 i => ?_⟩
    have a1 := i₁ i
    have a2 := i₂ i
    have w2 : 0 ≤ 1 - w := by linarith
    have e : q₁ i + w * (q₂ i - q₁ i) = (1 - w) * q₁ i + w * q₂ i := by ring
    show r.lo i ≤ q₁ i + w * (q₂ i - q₁ i) ∧ q₁ i + w * (q₂ i - q₁ i) ≤ r.hi i
    rw [e]
    constructor
    · have := mul_le_mul_of_nonneg_left a1.1 w2
      have := mul_le_mul_of_nonneg_left a2.1 w0
      linarith
    · have := mul_le_mul_of_nonneg_left a1.2 w2
      have := mul_le_mul_of_nonneg_left a2.2 w0
      linarith

/-- A transformation that is a translation along x. -/
def shiftX (x : ℚ) : Mat ℚ := translateMat ![x, 0, 0]

/-- An object that moves by 10 until the time 1 and back until the time 2. -/
def there : Frame ℚ := ⟨fun t => shiftX (if t = 1 then 10 else 0), fun _ => identity⟩

/-- A camera that moves by 10 until the time 1 and stays there. -/
def away : Frame ℚ := ⟨fun _ => identity, fun t => shiftX (if t < 1 then 0 else 10)⟩

/-- If the shutter opens at another time the bound of a moving object lacks points that the object reaches while the shutter is open
(here at the key 2, between 1 and 2): it is calculated with the transformation at the time 0. -/
theorem C66_motion_violated :
    (stored there 1 ![0, 0, 5]).map (fun P => P 0) = some 10 ∧
    ((stored there 1 ![0, 0, 5]).bind fun P => gridAt there 1 2 P).map (fun q => q 0) = some 0 ∧
    (adjust 1000 there [0, 1, 2] ⟨![10, 0, 5], ![10, 0, 5]⟩).map (fun r => (r.lo 0, r.hi 0)) = some (10, 20) := by decide +kernel

/-- If the camera moves and the shutter opens at another time than 0, the points are not where the camera sees them: at the key 1 the
object should be at 10. -/
theorem C66_place_violated :
    ((apply3 (away.obj 1) ![0, 0, 5]).bind (apply3 (away.cam 1))).map (fun q => q 0) = some 10 ∧
    ((stored away 1 ![0, 0, 5]).bind fun P => gridAt away 1 1 P).map (fun q => q 0) = some 0 := by decide +kernel

/-- Not vacuous: the same object with the shutter opening at 0. -/
example : (stored there 0 ![0, 0, 5]).map (fun P => P 0) = some 0 ∧
    ((stored there 0 ![0, 0, 5]).bind fun P => gridAt there 0 1 P).map (fun q => q 0) = some 10 ∧
    (adjust 1000 there [0, 1, 2] ⟨![0, 0, 5], ![0, 0, 5]⟩).map (fun r => (r.lo 0, r.hi 0)) = some (0, 10) := by decide +kernel

omit [IsStrictOrderedRing K] in
/-- **C66.** A surface without motion keeps its bound. -/
theorem C66_static (big : K) (f : Frame K) (keys : List K) (hk : keys.length ≤ 1) (b : Box K) : adjust big f keys b = some b :=
  if_neg (by omega)

example : ([0] : List ℚ).length ≤ 1 := by decide

/-- **C66.** The bound of a deforming surface contains the lines between the points of its keys, and is not larger than the bounds
of the keys require. -/
theorem C66_deforming (big : K) (bs : List (Box K)) :
    (∀ b₁ ∈ bs, ∀ b₂ ∈ bs, ∀ p₁ p₂ : Pt K, In p₁ b₁ → In p₂ b₂ → ∀ w : K, 0 ≤ w → w ≤ 1 →
      In (fun i => p₁ i + w * (p₂ i - p₁ i)) (deforming big bs)) ∧
    (∀ c : Box K, (∀ b ∈ bs, ∀ i, c.lo i ≤ b.lo i ∧ b.hi i ≤ c.hi i) → (∀ i, c.lo i ≤ big ∧ -big ≤ c.hi i) →
      ∀ i, c.lo i ≤ (deforming big bs).lo i ∧ (deforming big bs).hi i ≤ c.hi i) := by
  have gen : ∀ (bs : List (Box K)) (a : Box K),
      (∀ i, (bs.foldl encapsulate a).lo i ≤ a.lo i ∧ a.hi i ≤ (bs.foldl encapsulate a).hi i) ∧
      (∀ b ∈ bs, ∀ i, (bs.foldl encapsulate a).lo i ≤ b.lo i ∧ b.hi i ≤ (bs.foldl encapsulate a).hi i) ∧
      (∀ c : Box K, (∀ b ∈ bs, ∀ i, c.lo i ≤ b.lo i ∧ b.hi i ≤ c.hi i) → (∀ i, c.lo i ≤ a.lo i ∧ a.hi i ≤ c.hi i) →
        ∀ i, c.lo i ≤ (bs.foldl encapsulate a).lo i ∧ (bs.foldl encapsulate a).hi i ≤ c.hi i) := by
    intro bs
    induction bs with
    | nil => intro a; exact ⟨fun i => ⟨le_refl _, le_refl _⟩, fun b h => absurd h (by simp), fun c _ h => h⟩
    | cons b bs ih =>
      intro a
      obtain ⟨h1, h2, h3⟩ := ih (encapsulate a b)
      rw [List.foldl_cons]
      refine ⟨fun i => ⟨(h1 i).1.trans (min_le_left _ _), (le_max_left _ _).trans (h1 i).2⟩, fun b' hb' i => ?_, fun c hc ha => ?_⟩
      · rcases List.mem_cons.1 hb' with rfl | hb'
        · exact ⟨(h1 i).1.trans (min_le_right _ _), (le_max_right _ _).trans (h1 i).2⟩
        · exact h2 b' hb' i
      · exact h3 c (fun b' hb' => hc b' (by simp [hb'])) (fun i => ⟨le_min (ha i).1 (hc b (by simp) i).1, max_le (ha i).2 (hc b (by simp) i).2⟩)
  obtain ⟨-, h2, h3⟩ := gen bs (start big)
  refine ⟨fun b₁ hb₁ b₂ hb₂ p₁ p₂ hp₁ hp₂ w w0 w1 i => ?_, h3⟩
  have a1 := h2 b₁ hb₁ i
  have a2 := h2 b₂ hb₂ i
  have w2 : 0 ≤ 1 - w := by linarith
  show (bs.foldl encapsulate (start big)).lo i ≤ p₁ i + w * (p₂ i - p₁ i) ∧ p₁ i + w * (p₂ i - p₁ i) ≤ (bs.foldl encapsulate (start big)).hi i
  rw [show p₁ i + w * (p₂ i - p₁ i) = (1 - w) * p₁ i + w * p₂ i by ring]
  constructor
  · have := mul_le_mul_of_nonneg_left (a1.1.trans (hp₁ i).1) w2
    have := mul_le_mul_of_nonneg_left (a2.1.trans (hp₂ i).1) w0
    linarith
  · have := mul_le_mul_of_nonneg_left ((hp₁ i).2.trans a1.2) w2
    have := mul_le_mul_of_nonneg_left ((hp₂ i).2.trans a2.2) w0
    linarith

example : ((deforming 1000 [(⟨![0, 0, 1], ![1, 1, 1]⟩ : Box ℚ), ⟨![5, 0, 1], ![6, 1, 1]⟩]).lo 0,
    (deforming 1000 [(⟨![0, 0, 1], ![1, 1, 1]⟩ : Box ℚ), ⟨![5, 0, 1], ![6, 1, 1]⟩]).hi 0) = (0, 6) := by decide +kernel

/-! ## Displacement -/

/-- **C66.** A displaced point is in the expanded bound; assumed is that no direction is stretched more than the x axis (as for
rotations and uniform scales). -/
theorem C66_displacement_partial (sqrt : K → K) (hs : ∀ x, 0 ≤ x → 0 ≤ sqrt x ∧ sqrt x * sqrt x = x) (m : Mat K) (hm : Sound m)
    (ha : Affine m) (h3 : m.m 3 0 = 0 ∧ m.m 3 1 = 0 ∧ m.m 3 2 = 0) (db : K)
    (hx : ∀ d : Pt K, dot (lin m.m d) (lin m.m d) ≤ dot (lin m.m ![1, 0, 0]) (lin m.m ![1, 0, 0]) * dot d d) (b : Box K) :
    ∃ r, displace sqrt m db b = some r ∧ ∀ p d, In p b → dot d d ≤ db * db → In (fun i => p i + lin m.m d i) r := by
  by_cases h0 : db = 0
  · refine ⟨b, if_neg (by simpa using h0), fun p d hp hd => ?_⟩
    have hd0 : dot d d ≤ 0 := by rw [h0] at hd; simpa using hd
    unfold dot at hd0
    have z0 : d 0 = 0 := by nlinarith [mul_self_nonneg (d 0), mul_self_nonneg (d 1), mul_self_nonneg (d 2)]
    have z1 : d 1 = 0 := by nlinarith [mul_self_nonneg (d 0), mul_self_nonneg (d 1), mul_self_nonneg (d 2)]
    have z2 : d 2 = 0 := by nlinarith [mul_self_nonneg (d 0), mul_self_nonneg (d 1), mul_self_nonneg (d 2)]
    intro i
    have : lin m.m d i = 0 := by unfold lin; rw [z0, z1, z2]; ring
    show b.lo i ≤ p i + lin m.m d i ∧ p i + lin m.m d i ≤ b.hi i
    rw [this, add_zero]
    exact hp i
  · have ev : apply3 m ![db, 0, 0] = some (lin m.m ![db, 0, 0]) := by
      rw [apply3_affine m hm ha]
      congr 1
      funext j
      rw [vecMul_hom]
      obtain ⟨a0, a1, a2⟩ := h3
      unfold lin
      fin_cases j
      · show m.m 0 0 * db + m.m 1 0 * 0 + m.m 2 0 * 0 + m.m 3 0 = db * m.m 0 0 + 0 * m.m 1 0 + 0 * m.m 2 0; rw [a0]; ring
      · show m.m 0 1 * db + m.m 1 1 * 0 + m.m 2 1 * 0 + m.m 3 1 = db * m.m 0 1 + 0 * m.m 1 1 + 0 * m.m 2 1; rw [a1]; ring
      · show m.m 0 2 * db + m.m 1 2 * 0 + m.m 2 2 * 0 + m.m 3 2 = db * m.m 0 2 + 0 * m.m 1 2 + 0 * m.m 2 2; rw [a2]; ring
    set v := lin m.m ![db, 0, 0] with hv
    have hnn : 0 ≤ dot v v := by unfold dot; nlinarith [mul_self_nonneg (v 0), mul_self_nonneg (v 1), mul_self_nonneg (v 2)]
    obtain ⟨e0, e1⟩ := hs _ hnn
    refine ⟨⟨fun i => b.lo i - sqrt (dot v v), fun i => b.hi i + sqrt (dot v v)⟩, ?_, fun p d hp hd i => ?_⟩
    · unfold displace
      rw [if_pos h0, ev]
      rfl
    · have q1 : dot (lin m.m d) (lin m.m d) ≤ dot v v := by
        refine (hx d).trans ?_
        have hn : 0 ≤ dot (lin m.m ![1, 0, 0]) (lin m.m ![1, 0, 0]) := by
          unfold dot
          nlinarith [mul_self_nonneg (lin m.m ![1, 0, 0] 0), mul_self_nonneg (lin m.m ![1, 0, 0] 1), mul_self_nonneg (lin m.m ![1, 0, 0] 2)]
        have : dot v v = dot (lin m.m ![1, 0, 0]) (lin m.m ![1, 0, 0]) * (db * db) := by
          rw [hv]
          unfold dot lin
          simp
          ring
        rw [this]
        exact mul_le_mul_of_nonneg_left hd hn
      have q2 : lin m.m d i * lin m.m d i ≤ dot (lin m.m d) (lin m.m d) := by
        unfold dot
        fin_cases i
        · show lin m.m d 0 * lin m.m d 0 ≤ _
          nlinarith [mul_self_nonneg (lin m.m d 1), mul_self_nonneg (lin m.m d 2)]
        · show lin m.m d 1 * lin m.m d 1 ≤ _
          nlinarith [mul_self_nonneg (lin m.m d 0), mul_self_nonneg (lin m.m d 2)]
        · show lin m.m d 2 * lin m.m d 2 ≤ _
          nlinarith [mul_self_nonneg (lin m.m d 1), mul_self_nonneg (lin m.m d 0)]
      have q3 : |lin m.m d i| ≤ sqrt (dot v v) := by
        refine abs_le_of_sq_le_sq ?_ e0
        rw [pow_two, pow_two, e1]
        exact q2.trans q1
      have q4 := abs_le.1 q3
      have := hp i
      show b.lo i - sqrt (dot v v) ≤ p i + lin m.m d i ∧ p i + lin m.m d i ≤ b.hi i + sqrt (dot v v)
      exact ⟨by linarith, by linarith⟩

/-- Not vacuous: a uniform scale by 2. -/
example : ((displace (fun _ => (4 : ℚ)) (scaleMat 2 2 2) 2 ⟨![0, 0, 1], ![1, 1, 1]⟩).map fun r => (r.lo 0, r.hi 2)) = some (-4, 5) ∧
    dot (lin (scaleMat (2 : ℚ) 2 2).m ![2, 0, 0]) (lin (scaleMat (2 : ℚ) 2 2).m ![2, 0, 0]) = 4 * 4 := by decide +kernel

/-- If another axis is stretched more than x the bound is too small: with a scale by (1, 2, 1) and the displacement bound 1 a point
that is displaced by 1 along y leaves it. -/
theorem C66_displacement_violated (sqrt : ℚ → ℚ) (h : sqrt 1 = 1) :
    (displace sqrt (scaleMat 1 2 1) 1 ⟨![0, 0, 5], ![0, 0, 5]⟩).map (fun r => r.hi 1) = some 1 ∧
    (apply3 (scaleMat (1 : ℚ) 2 1) ![0, 1, 0]).map (fun v => v 1) = some 2 := by
  refine ⟨?_, by decide +kernel⟩
  have e1 : (apply3 (scaleMat (1 : ℚ) 2 1) ![1, 0, 0]) = some ![1, 0, 0] := by decide +kernel
  unfold displace
  rw [if_pos one_ne_zero, e1]
  show some ((0 : ℚ) + sqrt (dot ![1, 0, 0] ![1, 0, 0])) = some 1
  rw [show dot (![1, 0, 0] : Pt ℚ) ![1, 0, 0] = 1 by decide +kernel, h, zero_add]

/-! ## Culling -/

/-- **C66.** A surface with a point between the clipping planes that is seen (through the lens, within half the width of the filter)
in the crop window is not culled, unless it reaches the plane of the eye and was split too often; if it has a bound then the place
where it is seen is in the bound. -/
theorem C66_cull (big : K) (o : Opts K) (hm : Sound o.toRaster) (hw : ∀ p : Pt K, 0 < p 2 → 0 < weight o.toRaster p) (he : 0 ≤ o.eps)
    (hc : ∀ c, o.coc = some c → ∀ z1 z z2 : K, 0 < z1 → z1 ≤ z → z ≤ z2 →
      (c z).1 ≤ max (c z1).1 (c z2).1 ∧ (c z).2 ≤ max (c z1).2 (c z2).2)
    (n : Int) (b : Box K) (p : Pt K) (hp : In p b) (hn : o.near < p 2) (hf : p 2 < o.far) :
    ∃ r, cull big o n b = some r ∧
      ∀ q s : Pt K, apply3 o.toRaster p = some q →
        (∀ k : K × K, k = (match o.coc with | some c => c (p 2) | none => (0, 0)) →
          |s 0 - q 0| ≤ k.1 + o.xFilt / 2 ∧ |s 1 - q 1| ≤ k.2 + o.yFilt / 2) →
        o.xMin ≤ s 0 → s 0 ≤ o.xMax → o.yMin ≤ s 1 → s 1 ≤ o.yMax →
        match r with
        | .culled => b.lo 2 ≤ o.eps ∧ o.maxEyeSplits < n
        | .undiceable => b.lo 2 ≤ o.eps ∧ n ≤ o.maxEyeSplits
        | .kept c => o.eps < b.lo 2 ∧ c.lo 0 ≤ s 0 ∧ s 0 ≤ c.hi 0 ∧ c.lo 1 ≤ s 1 ∧ s 1 ≤ c.hi 1 ∧ c.lo 2 = b.lo 2 ∧ c.hi 2 = b.hi 2 := by
  have hz : ¬ (b.lo 2 ≥ o.far ∨ b.hi 2 ≤ o.near) := by
    rintro (h | h)
    · exact absurd ((hp 2).1.trans_lt hf) (not_lt.2 h)
    · exact absurd (hn.trans_le (hp 2).2) (not_lt.2 h)
  unfold cull
  rw [if_neg hz]
  by_cases hE : b.lo 2 ≤ o.eps
  · rw [if_pos hE]
    by_cases hN : n > o.maxEyeSplits
    · rw [if_pos hN]; exact ⟨_, rfl, fun _ _ _ _ _ _ _ _ => ⟨hE, hN⟩⟩
    · rw [if_neg hN]; exact ⟨_, rfl, fun _ _ _ _ _ _ _ _ => ⟨hE, not_lt.1 hN⟩⟩
  rw [if_neg hE]
  push Not at hE
  have hlz : 0 < b.lo 2 := he.trans_lt hE
  have hcw : ∀ c ∈ corners b, 0 < weight o.toRaster c := by
    intro c hc
    refine hw c ?_
    rcases corner_spec hc 2 with h | h
    · rw [h]; exact hlz
    · rw [h]; exact hlz.trans_le ((hp 2).1.trans (hp 2).2)
  obtain ⟨r, er, h1, -⟩ := transform_spec big o.toRaster hm b hcw
  rw [er]
  refine ⟨_, rfl, fun q s hq hs x0 x1 y0 y1 => ?_⟩
  obtain ⟨q', hq', hin⟩ := h1 p hp
  rw [hq] at hq'
  have := Option.some.inj hq'
  subst this
  set c := filterExpand o.xFilt o.yFilt (dofExpand o.coc (b.lo 2) (b.hi 2) r) with hcdef
  have main : c.lo 0 ≤ s 0 ∧ s 0 ≤ c.hi 0 ∧ c.lo 1 ≤ s 1 ∧ s 1 ≤ c.hi 1 := by
    obtain ⟨s0, s1⟩ := hs _ rfl
    have a0 := abs_le.1 s0
    have a1 := abs_le.1 s1
    have i0 := hin 0
    have i1 := hin 1
    cases hk : o.coc with
    | none =>
      rw [hk] at a0 a1
      have e1 : c = filterExpand o.xFilt o.yFilt r := by rw [hcdef, hk]; rfl
      rw [e1]
      show r.lo 0 - o.xFilt / 2 ≤ s 0 ∧ s 0 ≤ r.hi 0 + o.xFilt / 2 ∧ r.lo 1 - o.yFilt / 2 ≤ s 1 ∧ s 1 ≤ r.hi 1 + o.yFilt / 2
      dsimp only at a0 a1
      refine ⟨by linarith [a0.1], by linarith [a0.2], by linarith [a1.1], by linarith [a1.2]⟩
    | some k =>
      rw [hk] at a0 a1
      dsimp only at a0 a1
      obtain ⟨k0, k1⟩ := hc k hk (b.lo 2) (p 2) (b.hi 2) hlz (hp 2).1 (hp 2).2
      have e1 : c = filterExpand o.xFilt o.yFilt (dofExpand (some k) (b.lo 2) (b.hi 2) r) := by rw [hcdef, hk]
      rw [e1]
      show r.lo 0 - max (k (b.lo 2)).1 (k (b.hi 2)).1 - o.xFilt / 2 ≤ s 0 ∧ s 0 ≤ r.hi 0 + max (k (b.lo 2)).1 (k (b.hi 2)).1 + o.xFilt / 2 ∧
        r.lo 1 - max (k (b.lo 2)).2 (k (b.hi 2)).2 - o.yFilt / 2 ≤ s 1 ∧ s 1 ≤ r.hi 1 + max (k (b.lo 2)).2 (k (b.hi 2)).2 + o.yFilt / 2
      refine ⟨by linarith [a0.1], by linarith [a0.2], by linarith [a1.1], by linarith [a1.2]⟩
  have hk : ¬ (c.lo 0 > o.xMax ∨ c.lo 1 > o.yMax ∨ c.hi 0 < o.xMin ∨ c.hi 1 < o.yMin) := by
    rintro (h | h | h | h)
    · exact absurd (main.1.trans x1) (not_le.2 h)
    · exact absurd (main.2.2.1.trans y1) (not_le.2 h)
    · exact absurd (x0.trans main.2.1) (not_le.2 h)
    · exact absurd (y0.trans main.2.2.2) (not_le.2 h)
  dsimp only
  rw [if_neg hk]
  exact ⟨hE, main.1, main.2.1, main.2.2.1, main.2.2.2, rfl, rfl⟩

/-- Not vacuous: a surface beside the window that is seen through the filter, one too far away from it, one behind the eye. -/
def exampleOpts : Opts ℚ := ⟨1, 100, 1 / 1000, 10, 2, 2, 0, 10, 0, 10, persp, some fun z => (z, z)⟩

/-- The name of a result. -/
def Res.name : Res ℚ → Nat
  | .culled => 0
  | .undiceable => 1
  | .kept _ => 2

example : (cull 1000 exampleOpts 0 ⟨![-5, 0, 2], ![-5, 1, 2]⟩).map Res.name = some 2 ∧
    (cull 1000 exampleOpts 0 ⟨![-8, 0, 2], ![-7, 1, 2]⟩).map Res.name = some 0 ∧
    (cull 1000 exampleOpts 0 ⟨![-5, 0, -2], ![-5, 1, 2]⟩).map Res.name = some 1 ∧
    (cull 1000 exampleOpts 11 ⟨![-5, 0, -2], ![-5, 1, 2]⟩).map Res.name = some 0 := by decide +kernel

theorem weight_persp (p : Pt ℚ) : weight persp p = p 2 := by
  rw [weight, vecMul_hom]
  show (0 : ℚ) * p 0 + 0 * p 1 + 1 * p 2 + 0 = p 2
  ring

omit [IsStrictOrderedRing K] in
/-- **C66.** Surfaces outside of the clipping planes are culled. A bound that is kept meets the crop window. -/
theorem C66_culled (big : K) (o : Opts K) (n : Int) (b : Box K) :
    (b.hi 2 ≤ o.near → cull big o n b = some .culled) ∧ (o.far ≤ b.lo 2 → cull big o n b = some .culled) ∧
    ∀ c, cull big o n b = some (.kept c) → c.lo 0 ≤ o.xMax ∧ o.xMin ≤ c.hi 0 ∧ c.lo 1 ≤ o.yMax ∧ o.yMin ≤ c.hi 1 := by
  refine ⟨fun h => if_pos (Or.inr h), fun h => if_pos (Or.inl h), fun c hc => ?_⟩
  unfold cull at hc
  split_ifs at hc with h1 h2 h3
  · exact absurd (Option.some.inj hc) (by simp)
  · exact absurd (Option.some.inj hc) (by simp)
  · exact absurd (Option.some.inj hc) (by simp)
  · obtain ⟨r, -, hr⟩ := Option.map_eq_some_iff.1 hc
    dsimp only at hr
    split_ifs at hr with h4
    have := Res.kept.inj hr
    subst this
    push Not at h4
    exact ⟨h4.1, h4.2.2.1, h4.2.1, h4.2.2.2⟩

/-- A surface that surrounds the eye and was split too often is culled although it is seen. -/
theorem C66_eye_violated : ∃ (b : Box ℚ) (p : Pt ℚ), In p b ∧ exampleOpts.near < p 2 ∧ p 2 < exampleOpts.far ∧
    (apply3 persp p).map (fun q => (q 0, q 1)) = some (5, 5) ∧
    (cull 1000 exampleOpts 11 b).map Res.name = some 0 := by
  refine ⟨⟨![10, 10, 0], ![10, 10, 2]⟩, ![10, 10, 2], ?_, by decide +kernel, by decide +kernel, by decide +kernel, by decide +kernel⟩
  unfold In
  decide +kernel

/-- **C66.** The condition on the circle of confusion holds for the lens of the renderer (property C57). -/
theorem C66_lens (l : Verif.Core.Dof.Lens) (hl : l.Good) (hf : 0 < l.invFocal) (z1 z z2 : ℚ) (h0 : 0 < z1) (h1 : z1 ≤ z) (h2 : z ≤ z2) :
    (Verif.Core.Dof.coc l z).1 ≤ max (Verif.Core.Dof.coc l z1).1 (Verif.Core.Dof.coc l z2).1 ∧
    (Verif.Core.Dof.coc l z).2 ≤ max (Verif.Core.Dof.coc l z1).2 (Verif.Core.Dof.coc l z2).2 :=
  (Verif.Core.Dof.C57_coc l hl hf z z1 z2 h0 h1 h2).1

example : Verif.Core.Dof.coc ⟨1, 1, 1, 2⟩ 2 = (1 / 2, 1) ∧ Verif.Core.Dof.coc ⟨1, 1, 1, 2⟩ 4 = (3 / 4, 3 / 2) := by
  unfold Verif.Core.Dof.coc
  norm_num

end Verif.Core.Cull
