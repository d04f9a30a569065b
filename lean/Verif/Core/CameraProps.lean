import Verif.Core.CameraLemmas

/-!
C100: the camera
-/

namespace Verif.Core.Camera

open Spec
open Verif.Math.Matrix4

variable {K : Type} [Field K] [LinearOrder K] [IsStrictOrderedRing K]

/-- **C100.** Of each kind of request the last one counts, whatever came between; a ratio of the frame that nobody asked for is
that of the resolution and the pixels, and a window that nobody asked for has the shape of the frame with its shorter half side
one. -/
theorem C100_requests (eps huge : K) (reqs : List (Req K)) :
    let o := camera eps huge reqs
    (o.resX, o.resY, o.par) = lastOf formatOf (640, 480, 1) reqs ∧
    o.frameRatio = (lastOf ratioOf none reqs).getD ((o.resX : K) * o.par / o.resY) ∧
    (o.left, o.right, o.bottom, o.top) = (lastOf windowOf none reqs).getD
      (if 1 ≤ o.frameRatio then (-o.frameRatio, o.frameRatio, -1, 1) else (-1, 1, -1 / o.frameRatio, 1 / o.frameRatio)) ∧
    (o.near, o.far) = lastOf clippingOf (eps, huge) reqs ∧ o.proj = lastOf projectionOf .orthographic reqs := by
  have h := requests_fold eps huge reqs
  unfold camera
  revert h
  generalize reqs.foldl request (initial eps huge) = o
  intro h
  obtain ⟨h1, h2, h3, h4, h5, h6, h7⟩ := h
  have r1 : ∀ o : Opts K, ((deriveRatio o).resX, (deriveRatio o).resY, (deriveRatio o).par) = (o.resX, o.resY, o.par) := by
    intro o; unfold deriveRatio; split_ifs <;> rfl
  have r2 : ∀ o : Opts K, ((deriveWindow o).resX, (deriveWindow o).resY, (deriveWindow o).par) = (o.resX, o.resY, o.par) := by
    intro o; unfold deriveWindow; split_ifs <;> rfl
  have r3 : ∀ o : Opts K, (deriveWindow o).frameRatio = o.frameRatio := by
    intro o; unfold deriveWindow; split_ifs <;> rfl
  have r4 : ∀ o : Opts K, ((deriveWindow o).near, (deriveWindow o).far, (deriveWindow o).proj) = (o.near, o.far, o.proj) := by
    intro o; unfold deriveWindow; split_ifs <;> rfl
  have r5 : ∀ o : Opts K, ((deriveRatio o).near, (deriveRatio o).far, (deriveRatio o).proj, (deriveRatio o).winSet,
      (deriveRatio o).left, (deriveRatio o).right, (deriveRatio o).bottom, (deriveRatio o).top) =
      (o.near, o.far, o.proj, o.winSet, o.left, o.right, o.bottom, o.top) := by
    intro o; unfold deriveRatio; split_ifs <;> rfl
  have e1 : (((worldBegin o).resX, (worldBegin o).resY, (worldBegin o).par) : Int × Int × K) = (o.resX, o.resY, o.par) := by
    unfold worldBegin; rw [r2, r1]
  have e2 := r4 (deriveRatio o)
  have e3 := r5 o
  have e4 : (worldBegin o).frameRatio = (lastOf ratioOf none reqs).getD ((o.resX : K) * o.par / o.resY) := by
    unfold worldBegin
    rw [r3]
    unfold deriveRatio
    cases hf : lastOf ratioOf none reqs with
    | none =>
      have : o.farSet = false := by
        cases hh : o.farSet
        · rfl
        · exact absurd hf (h2.mp hh)
      rw [this]; simp
    | some f =>
      have : o.farSet = true := h2.mpr (by rw [hf]; simp)
      rw [this]; simp [h3 f hf]
  simp only [Prod.mk.injEq] at e1 e2 e3
  obtain ⟨a1, a2, a3⟩ := e1
  simp only [] at *
  refine ⟨by rw [a1, a2, a3]; exact h1, by rw [a1, a2, a3]; exact e4, ?_, ?_, ?_⟩
  · cases hf : lastOf windowOf none reqs with
    | none =>
      have hw : (deriveRatio o).winSet = false := by
        rw [e3.2.2.2.1]
        cases hh : o.winSet
        · rfl
        · exact absurd hf (h4.mp hh)
      have hr : (worldBegin o).frameRatio = (deriveRatio o).frameRatio := r3 _
      rw [hr]
      unfold worldBegin deriveWindow
      rw [hw]
      simp only [Bool.false_eq_true, if_false, Option.getD_none]
      split_ifs <;> rfl
    | some x =>
      have hw : (deriveRatio o).winSet = true := by
        rw [e3.2.2.2.1]; exact h4.mpr (by rw [hf]; simp)
      have : worldBegin o = deriveRatio o := by
        unfold worldBegin deriveWindow
        rw [hw]; simp
      rw [this, e3.2.2.2.2.1, e3.2.2.2.2.2.1, e3.2.2.2.2.2.2.1, e3.2.2.2.2.2.2.2]
      exact h5 x hf
  · show ((deriveWindow (deriveRatio o)).near, (deriveWindow (deriveRatio o)).far) = _
    rw [e2.1, e2.2.1, e3.1, e3.2.1]; exact h6
  · show (deriveWindow (deriveRatio o)).proj = _
    rw [e2.2.2, e3.2.2.1]; exact h7

example : ((camera (K := ℚ) 1 100 [.screenWindow (-1) 1 (-2) 2, .format 100 200 1, .format 300 200 (-1)]).frameRatio,
    (camera (K := ℚ) 1 100 [.screenWindow (-1) 1 (-2) 2, .format 100 200 1, .format 300 200 (-1)]).top) = (3 / 2, 2) := by
  decide +kernel

/-- **C100.** If nobody asked for a window, the pixels have the shape that `Format` gives them: the width of a pixel on the screen
is its height times the pixel aspect ratio. If nobody asked for a ratio either, the frame is the whole raster. -/
theorem C100_pixels (eps huge : K) (reqs : List (Req K)) (hwin : lastOf windowOf none reqs = none) :
    let o := camera eps huge reqs
    0 < o.resX → 0 < o.resY → 0 < o.par → 0 < o.frameRatio →
    0 < frameX o ∧ 0 < frameY o ∧
    (o.right - o.left) / frameX o = o.par * ((o.top - o.bottom) / frameY o) ∧
    (lastOf ratioOf none reqs = none → frameX o = o.resX ∧ frameY o = o.resY) := by
  intro o h1 h2 h3 h4
  obtain ⟨-, e2, e3, -, -⟩ := C100_requests eps huge reqs
  change o.frameRatio = _ at e2
  change (o.left, o.right, o.bottom, o.top) = _ at e3
  have x1 : (0 : K) < o.resX := by exact_mod_cast h1
  have x2 : (0 : K) < o.resY := by exact_mod_cast h2
  rw [hwin] at e3
  change (o.left, o.right, o.bottom, o.top) =
    if 1 ≤ o.frameRatio then (-o.frameRatio, o.frameRatio, -1, 1) else (-1, 1, -1 / o.frameRatio, 1 / o.frameRatio) at e3
  unfold frameX frameY
  by_cases h : 1 ≤ o.frameRatio
  · rw [if_pos h] at e3 ⊢
    simp only [Prod.mk.injEq] at e3
    obtain ⟨l1, l2, l3, l4⟩ := e3
    rw [if_neg (not_lt.mpr h), l1, l2, l3, l4]
    refine ⟨x1, by positivity, by field_simp, ?_⟩
    intro hr
    rw [hr] at e2
    simp only [Option.getD_none] at e2
    refine ⟨rfl, ?_⟩
    change o.frameRatio = (o.resX : K) * o.par / o.resY at e2
    rw [e2]
    field_simp
  · rw [if_neg h] at e3 ⊢
    simp only [Prod.mk.injEq] at e3
    obtain ⟨l1, l2, l3, l4⟩ := e3
    rw [if_pos (not_le.mp h), l1, l2, l3, l4]
    refine ⟨by positivity, x2, ?_, ?_⟩
    · field_simp
    intro hr
    rw [hr] at e2
    simp only [Option.getD_none] at e2
    refine ⟨?_, rfl⟩
    change o.frameRatio = (o.resX : K) * o.par / o.resY at e2
    rw [e2]
    field_simp

example : lastOf windowOf none ([.format 100 200 2] : List (Req ℚ)) = none ∧
    (camera (K := ℚ) 1 100 [.format 100 300 2]).frameRatio = 2 / 3 := by decide +kernel

/-- **C100**, what holds: the frame has the ratio that was asked for, and it fits into the raster exactly if the ratio is at least
one and at least that of the raster, or less than one and at most that of the raster. (Missing: see the violation.) -/
theorem C100_frame_partial (o : Opts K) (h1 : 0 < o.resX) (h2 : 0 < o.resY) (h3 : 0 < o.par) (h4 : 0 < o.frameRatio) :
    frameX o * o.par = o.frameRatio * frameY o ∧
    (frameX o ≤ o.resX ∧ frameY o ≤ o.resY ↔
      (1 ≤ o.frameRatio ∧ (o.resX : K) * o.par / o.resY ≤ o.frameRatio) ∨
      (o.frameRatio < 1 ∧ o.frameRatio ≤ (o.resX : K) * o.par / o.resY)) ∧
    (frameX o = o.resX ∨ frameY o = o.resY) := by
  have x1 : (0 : K) < o.resX := by exact_mod_cast h1
  have x2 : (0 : K) < o.resY := by exact_mod_cast h2
  unfold frameX frameY
  by_cases h : 1 ≤ o.frameRatio
  · rw [if_pos h, if_neg (not_lt.mpr h)]
    refine ⟨by field_simp, ?_, Or.inl rfl⟩
    rw [div_le_iff₀ h4, div_le_iff₀ x2]
    constructor
    · rintro ⟨-, b⟩; exact Or.inl ⟨h, by linarith⟩
    · rintro (⟨-, b⟩ | ⟨b, -⟩)
      · exact ⟨le_refl _, by linarith⟩
      · exact absurd h (not_le.mpr b)
  · rw [if_neg h, if_pos (not_le.mp h)]
    refine ⟨by field_simp, ?_, Or.inr rfl⟩
    rw [div_le_iff₀ h3, le_div_iff₀ x2]
    constructor
    · rintro ⟨b, -⟩; exact Or.inr ⟨not_le.mp h, by linarith⟩
    · rintro (⟨b, -⟩ | ⟨-, b⟩)
      · exact absurd b h
      · exact ⟨by linarith, le_refl _⟩

example : (0 : Int) < (camera (K := ℚ) 1 100 [.frameAspectRatio 2]).resX ∧
    frameY (camera (K := ℚ) 1 100 [.frameAspectRatio 2]) = 320 := by decide +kernel

/-- **C100 is violated**: "the picture is made to fit into the display area". With the resolution 640 × 480 and the ratio 1 the
frame is 640 × 640: a quarter of it is below the raster. -/
theorem C100_frame_violated :
    ∃ reqs : List (Req ℚ), let o := camera 1 100 reqs
      (o.resX, o.resY, o.par, o.frameRatio) = (640, 480, 1, 1) ∧ (frameX o, frameY o) = (640, 640) :=
  ⟨[.format 640 480 1, .frameAspectRatio 1], by decide +kernel, by decide +kernel⟩

/-- **C100.** What the projections make of a point in front of the camera: the orthographic one keeps its place, the perspective
one divides it by its distance times the tangent of half the field of view. -/
theorem C100_image (o : Opts K) (s x y z : K) (hf : o.near ≠ o.far) :
    (o.proj = .orthographic →
      apply3 (cameraToImage o s) ![x, y, z] = some ![x, y, (2 * z - (o.far + o.near)) / (o.far - o.near)]) ∧
    (o.proj = .perspective → z ≠ 0 → apply3 (cameraToImage o s) ![x, y, z] =
      some ![x / (s * z), y / (s * z), o.far * (z - o.near) / (z * (o.far - o.near))]) ∧
    (o.proj = .perspective → apply3 (cameraToImage o s) ![x, y, 0] = none) ∧
    (o.proj = .none → apply3 (cameraToImage o s) ![x, y, z] = some ![x, y, z]) := by
  have hd : o.far - o.near ≠ 0 := sub_ne_zero.mpr (Ne.symm hf)
  refine ⟨fun h => ?_, fun h hz => ?_, fun h => ?_, fun h => ?_⟩
  · rw [apply3_spec _ (cameraToImage_sound o s)]
    simp only [cameraToImage, h]
    rw [if_neg]
    · congr 1
      funext j
      fin_cases j <;>
        simp [setElement, blank, identity, hom, Matrix.vecMul, dotProduct, Fin.sum_univ_four]
      field_simp
      ring
    · simp [setElement, blank, identity, hom, Matrix.vecMul, dotProduct, Fin.sum_univ_four]
  · rw [apply3_spec _ (cameraToImage_sound o s)]
    simp only [cameraToImage, h]
    rw [if_neg]
    · congr 1
      funext j
      fin_cases j <;>
        simp [setElement, blank, identity, hom, Matrix.vecMul, dotProduct, Fin.sum_univ_four]
      · rw [div_eq_mul_inv, div_eq_mul_inv, mul_inv]; ring
      · rw [div_eq_mul_inv, div_eq_mul_inv, mul_inv]; ring
      · field_simp
        ring
    · simpa [setElement, blank, identity, hom, Matrix.vecMul, dotProduct, Fin.sum_univ_four] using hz
  · rw [apply3_spec _ (cameraToImage_sound o s)]
    simp only [cameraToImage, h]
    rw [if_pos]
    simp [setElement, blank, identity, hom, Matrix.vecMul, dotProduct, Fin.sum_univ_four]
  · simp only [cameraToImage, h]
    rfl

example : (apply3 (cameraToImage { initial (K := ℚ) 1 3 with proj := .perspective } (1 / 2)) ![1, 2, 2]).map
    (fun q => (q 0, q 1, q 2)) = some (1, 2, 3 / 4) := by decide +kernel

/-- **C100.** The raster place of a point: the projection, then the transform before `Projection`, then the window: its left upper
corner is at the origin of the raster, its right lower corner at the size of the frame; the depth stays. This is the matrix of the
camera and the raster, whatever place the camera has in the world. -/
theorem C100_raster (o : Opts K) (s : K) (pre w c : Mat K) (hp : Sound pre) (hw : Sound w) (hx : o.left ≠ o.right)
    (hy : o.bottom ≠ o.top) (hc : cameraToRaster o s pre w = some c) (p q v : Fin 3 → K)
    (h1 : apply3 (cameraToImage o s) p = some q) (h2 : apply3 pre q = some v) :
    apply3 c p = some (raster o.left o.right o.top o.bottom (frameX o) (frameY o) v) := by
  obtain ⟨sc, mc⟩ := cameraToRaster_sm o s pre w c hp hw hx hy hc
  obtain ⟨-, a2, -⟩ := C60_points (cameraToImage o s) pre (cameraToImage_sound o s) hp p
  obtain ⟨g, hg, eg⟩ := a2 q h1
  obtain ⟨-, b2, -⟩ := C60_points pre pre hp hp q
  obtain ⟨k, hk, ek⟩ := b2 v h2
  have : Matrix.vecMul (hom p) c.m =
      (g * k) • hom (raster o.left o.right o.top o.bottom (frameX o) (frameY o) v) := by
    rw [mc, ← Matrix.vecMul_vecMul, ← Matrix.vecMul_vecMul, eg, Matrix.smul_vecMul, ek, Matrix.smul_vecMul, Matrix.smul_vecMul,
      imageRaster_apply, smul_smul]
  have gk : g * k ≠ 0 := mul_ne_zero hg hk
  have h3 : Matrix.vecMul (hom p) c.m 3 = g * k := by rw [this]; simp [hom]
  rw [apply3_spec c sc, if_neg (by rw [h3]; exact gk), h3, this]
  congr 1
  funext j
  fin_cases j <;> simp [hom] <;> field_simp

example : ((cameraToRaster (camera (K := ℚ) 1 3 []) 1 identity (translateMat ![5, 6, 7])).bind fun c =>
    (apply3 c ![4 / 3, -1, 2]).map fun q => (q 0, q 1, q 2)) = some (640, 480, 0) := by decide +kernel

/-- **C100**, what holds: nearer points have smaller depths, and the planes of clipping have the depths −1 and 1 in an orthographic,
0 and 1 in a perspective projection. (Missing: the same depths for both, see the violation.) -/
theorem C100_depth_partial (o : Opts K) (s x y x' y' z z' : K) (hn : 0 < o.near) (hf : o.near < o.far) (hz : 0 < z) (hz' : z < z')
    (h : o.proj ≠ .none) :
    ∃ q q' a b, apply3 (cameraToImage o s) ![x, y, z] = some q ∧ apply3 (cameraToImage o s) ![x', y', z'] = some q' ∧
      q 2 < q' 2 ∧ apply3 (cameraToImage o s) ![x, y, o.near] = some a ∧ apply3 (cameraToImage o s) ![x, y, o.far] = some b ∧
      a 2 = (if o.proj = .orthographic then -1 else 0) ∧ b 2 = 1 := by
  have hd : 0 < o.far - o.near := sub_pos.mpr hf
  have hF : 0 < o.far := hn.trans hf
  have hZ : 0 < z' := hz.trans hz'
  cases hp : o.proj with
  | none => exact absurd hp h
  | orthographic =>
    refine ⟨_, _, _, _, (C100_image o s x y z hf.ne).1 hp, (C100_image o s x' y' z' hf.ne).1 hp, ?_,
      (C100_image o s x y o.near hf.ne).1 hp, (C100_image o s x y o.far hf.ne).1 hp, ?_, ?_⟩
    · show (2 * z - (o.far + o.near)) / (o.far - o.near) < (2 * z' - (o.far + o.near)) / (o.far - o.near)
      rw [div_lt_div_iff_of_pos_right hd]; linarith
    · show (2 * o.near - (o.far + o.near)) / (o.far - o.near) = _
      rw [if_pos rfl, div_eq_iff hd.ne']; ring
    · show (2 * o.far - (o.far + o.near)) / (o.far - o.near) = _
      rw [div_eq_iff hd.ne']; ring
  | perspective =>
    refine ⟨_, _, _, _, (C100_image o s x y z hf.ne).2.1 hp hz.ne', (C100_image o s x' y' z' hf.ne).2.1 hp hZ.ne', ?_,
      (C100_image o s x y o.near hf.ne).2.1 hp hn.ne', (C100_image o s x y o.far hf.ne).2.1 hp hF.ne', ?_, ?_⟩
    · show o.far * (z - o.near) / (z * (o.far - o.near)) < o.far * (z' - o.near) / (z' * (o.far - o.near))
      rw [div_lt_div_iff₀ (mul_pos hz hd) (mul_pos hZ hd)]
      have : 0 < o.far * (o.far - o.near) * o.near * (z' - z) := by
        have : 0 < z' - z := sub_pos.mpr hz'
        positivity
      nlinarith
    · show o.far * (o.near - o.near) / (o.near * (o.far - o.near)) = _
      rw [if_neg (by simp)]; simp
    · show o.far * (o.far - o.near) / (o.far * (o.far - o.near)) = _
      rw [div_self (mul_pos hF hd).ne']

example : (0 : ℚ) < (initial (K := ℚ) 1 2).near ∧ (initial (K := ℚ) 1 2).near < (initial (K := ℚ) 1 2).far ∧
    (initial (K := ℚ) 1 2).proj ≠ .none := by decide +kernel

/-- **C100 is violated**: "the near plane of clipping has the same depth in every projection". In an orthographic projection it is
−1, in a perspective one 0. -/
theorem C100_depth_violated :
    ∃ o o' : Opts ℚ, o' = { o with proj := .perspective } ∧ (0 < o.near ∧ o.near < o.far) ∧
      (apply3 (cameraToImage o 1) ![0, 0, o.near]).map (fun q => q 2) = some (-1) ∧
      (apply3 (cameraToImage o' 1) ![0, 0, o'.near]).map (fun q => q 2) = some 0 :=
  ⟨initial 1 2, _, rfl, by decide +kernel, by decide +kernel, by decide +kernel⟩

/-- **C100.** The matrix for vectors is the same as without the memory of the last one, whatever was asked before. -/
theorem C100_vectors (as : List (Mat K)) (a : Mat K) (ha : Sound a) (has : ∀ x ∈ as, Sound x) :
    let c := as.foldl (fun c x => (vectorMatrix c x).2) Cache.start
    (vectorMatrix c a).1.m = (vectorTransform a).m ∧ Sound (vectorMatrix c a).1 := by
  have key : ∀ (as : List (Mat K)) (c : Cache K), (∀ x ∈ as, Sound x) → c.result.m = (vectorTransform c.key).m → Sound c.result →
      (as.foldl (fun c x => (vectorMatrix c x).2) c).result.m =
        (vectorTransform (as.foldl (fun c x => (vectorMatrix c x).2) c).key).m ∧
      Sound (as.foldl (fun c x => (vectorMatrix c x).2) c).result := by
    intro as
    induction as with
    | nil => intro c _ h1 h2; exact ⟨h1, h2⟩
    | cons x l ih =>
      intro c hs h1 h2
      rw [List.foldl_cons]
      apply ih _ (fun y hy => hs y (List.mem_cons_of_mem _ hy))
      · unfold vectorMatrix
        split_ifs
        · exact h1
        · rfl
      · unfold vectorMatrix
        split_ifs
        · exact h2
        · exact vectorTransform_sound x (hs x (List.mem_cons_self ..))
  have h0 : (Cache.start : Cache K).result.m = (vectorTransform (Cache.start : Cache K).key).m := by
    show (identity : Mat K).m = (vectorTransform identity).m
    ext i j
    fin_cases i <;> fin_cases j <;> simp [identity, vectorTransform]
  obtain ⟨k1, k2⟩ := key as Cache.start has h0 identity_sound
  intro c
  change c.result.m = (vectorTransform c.key).m at k1
  change Sound c.result at k2
  unfold vectorMatrix
  by_cases h : ((List.finRange 4).all fun i => (List.finRange 4).all fun j => decide (c.key.m i j = a.m i j)) = true
  · rw [if_pos h]
    have h' : ∀ i j, c.key.m i j = a.m i j := by simpa [List.all_eq_true] using h
    refine ⟨?_, k2⟩
    show c.result.m = _
    rw [k1]
    ext i j
    simp only [vectorTransform, h']
  · rw [if_neg h]
    exact ⟨rfl, vectorTransform_sound a ha⟩

example : (vectorMatrix (vectorMatrix Cache.start (translateMat (K := ℚ) ![1, 2, 3])).2 (scaleMat 2 3 4)).1.m 1 1 = 3 := by
  decide +kernel

/-- **C100.** The scale of the circle of confusion is the number of pixels that a step by one in x and y makes in the raster: at the
distance one in a perspective projection, anywhere in the others. -/
theorem C100_dof (o : Opts K) (s : K) (pre w c m : Mat K) (hp : Sound pre) (ha : Affine pre) (hw : Sound w)
    (hx : o.left ≠ o.right) (hy : o.bottom ≠ o.top) (hc : cameraToRaster o s pre w = some c)
    (hm : m.m = (vectorTransform c).m) (sm : Sound m) (x y z : K) (hz : z ≠ 0) :
    ∃ a b q q', dofScale m = some (a, b) ∧ apply3 c ![x, y, z] = some q ∧ apply3 c ![x + 1, y + 1, z] = some q' ∧
      let k := if o.proj = .perspective then |z| else 1
      |q' 0 - q 0| = a / k ∧ |q' 1 - q 1| = b / k := by
  obtain ⟨sc, mc⟩ := cameraToRaster_sm o s pre w c hp hw hx hy hc
  have hI : (imageRaster o) 0 3 = 0 ∧ (imageRaster o) 1 3 = 0 ∧ (imageRaster o) 2 3 = 0 ∧ (imageRaster o) 3 3 = 1 := by
    simp [imageRaster]
  have col : ∀ i, c.m i 3 = (cameraToImage o s).m i 3 := by
    intro i
    rw [mc, mul_col _ _ hI, mul_col _ _ ha]
  have c0 : c.m 0 3 = 0 := by
    rw [col]; unfold cameraToImage; cases o.proj <;> simp [setElement, blank, identity]
  have c1 : c.m 1 3 = 0 := by
    rw [col]; unfold cameraToImage; cases o.proj <;> simp [setElement, blank, identity]
  have hk : ∀ u v : K, Matrix.vecMul (hom ![u, v, z]) c.m 3 = if o.proj = .perspective then z else 1 := by
    intro u v
    have e : Matrix.vecMul (hom ![u, v, z]) c.m 3 = z * c.m 2 3 + c.m 3 3 := by
      simp [Matrix.vecMul, dotProduct, Fin.sum_univ_four, hom, c0, c1]
    rw [e, col, col]
    unfold cameraToImage
    cases o.proj <;> simp [setElement, blank, identity]
  have h0 : (if o.proj = .perspective then z else 1 : K) ≠ 0 := by
    split_ifs
    · exact hz
    · exact one_ne_zero
  have ap : ∀ u v : K, apply3 c ![u, v, z] = some fun j =>
      Matrix.vecMul (hom ![u, v, z]) c.m j.castSucc / (if o.proj = .perspective then z else 1) := by
    intro u v
    rw [apply3_spec c sc, hk, if_neg h0]
  have am : ∀ v : Fin 3 → K, apply3 m v = some fun j => Matrix.vecMul (hom v) m.m j.castSucc := by
    intro v
    have : Matrix.vecMul (hom v) m.m 3 = 1 := by
      rw [hm]
      simp [Matrix.vecMul, dotProduct, Fin.sum_univ_four, hom, vectorTransform]
    rw [apply3_spec m sm, this, if_neg one_ne_zero]
    simp
  have ka : |(if o.proj = .perspective then z else 1 : K)| = if o.proj = .perspective then |z| else 1 := by
    split_ifs
    · rfl
    · exact abs_one
  refine ⟨|c.m 0 0 + c.m 1 0|, |c.m 0 1 + c.m 1 1|, _, _, ?_, ap x y, ap (x + 1) (y + 1), ?_, ?_⟩
  · unfold dofScale
    rw [am, am]
    simp only [Option.some.injEq, Prod.mk.injEq]
    rw [hm]
    constructor
    · congr 1
      simp [Matrix.vecMul, dotProduct, Fin.sum_univ_four, hom, vectorTransform]
    · congr 1
      simp [Matrix.vecMul, dotProduct, Fin.sum_univ_four, hom, vectorTransform]
  · rw [← ka, ← abs_div, div_sub_div_same]
    congr 2
    simp [Matrix.vecMul, dotProduct, Fin.sum_univ_four, hom]
    ring
  · rw [← ka, ← abs_div, div_sub_div_same]
    congr 2
    simp [Matrix.vecMul, dotProduct, Fin.sum_univ_four, hom]
    ring

example : ∃ c, cameraToRaster ({ initial (K := ℚ) 1 100 with proj := .perspective }) (1 / 2) identity identity = some c ∧
    dofScale (vectorTransform c) = some (480, 480) := by
  have h : ((cameraToRaster ({ initial (K := ℚ) 1 100 with proj := .perspective }) (1 / 2) identity identity).bind fun c =>
    dofScale (vectorTransform c)) = some (480, 480) := by decide +kernel
  rw [Option.bind_eq_some_iff] at h
  exact h

end Verif.Core.Camera
