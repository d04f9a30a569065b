import Verif.Core.Camera
import Verif.Math.MatrixProps
import Mathlib.Tactic.FieldSimp
import Mathlib.Tactic.Linarith
import Mathlib.Tactic.FinCases
import Mathlib.Tactic.Positivity

/-!
Lemmas about the camera
-/

namespace Verif.Core.Camera

open Verif.Math.Matrix4

variable {K : Type} [Field K] [LinearOrder K] [IsStrictOrderedRing K]

namespace Spec

/-- Where a point of the image plane is in the raster: the left upper corner of the screen window at the origin, the right lower
corner at the size of the frame. -/
def raster (l r t b fx fy : K) (v : Fin 3 → K) : Fin 3 → K := ![(v 0 - l) / (r - l) * fx, (t - v 1) / (t - b) * fy, v 2]

/-- The last of the values that requests give. -/
def lastOf {α : Type} (f : Req K → Option α) (dflt : α) (reqs : List (Req K)) : α := (reqs.reverse.findSome? f).getD dflt

/-- Resolution and pixel aspect ratio of a request. -/
def formatOf : Req K → Option (Int × Int × K)
  | .format x y p => some (x, y, if p < 0 then 1 else p)
  | _ => none

/-- The ratio of the frame of a request. -/
def ratioOf : Req K → Option (Option K)
  | .frameAspectRatio f => some (some f)
  | _ => none

/-- The screen window of a request: left, right, bottom, top. -/
def windowOf : Req K → Option (Option (K × K × K × K))
  | .screenWindow l r b t => some (some (l, r, b, t))
  | _ => none

/-- The clipping planes of a request. -/
def clippingOf : Req K → Option (K × K)
  | .clipping n f => some (n, f)
  | _ => none

/-- The projection of a request. -/
def projectionOf : Req K → Option Projection
  | .projection p => some p
  | _ => none

end Spec

open Spec

/-! ## Elements -/

theorem sound_not (a : Mat K) (h : a.ident = false) : Sound a := by
  intro h'; rw [h] at h'; exact absurd h' (by simp)

theorem sound_setElement (a : Mat K) (h : a.ident = false) (i j : Fin 4) (v : K) : (setElement a i j v).ident = false := h

theorem imageToScreen_sound (o : Opts K) : Sound (imageToScreen o) := sound_not _ rfl

theorem cameraToImage_sound (o : Opts K) (s : K) : Sound (cameraToImage o s) := by
  unfold cameraToImage
  cases o.proj
  · exact fun _ => identity_m
  · exact sound_not _ rfl
  · exact sound_not _ rfl

theorem scale_m (x y z : K) : (scaleMat x y z).m = !![x, 0, 0, 0; 0, y, 0, 0; 0, 0, z, 0; 0, 0, 0, 1] := by
  unfold scaleMat
  split_ifs with h
  · ext i j
    fin_cases i <;> fin_cases j <;> simp
  · push Not at h
    obtain ⟨h1, h2, h3⟩ := h
    rw [identity_m, h1, h2, h3]
    ext i j
    fin_cases i <;> fin_cases j <;> simp

theorem translate_m (x y z : K) : (translateMat ![x, y, z]).m = !![1, 0, 0, 0; 0, 1, 0, 0; 0, 0, 1, 0; x, y, z, 1] := by
  unfold translateMat
  split_ifs with h
  · ext i j
    fin_cases i <;> fin_cases j <;> simp
  · push Not at h
    obtain ⟨h1, h2, h3⟩ := h
    simp only [Matrix.cons_val_zero, Matrix.cons_val_one, Matrix.cons_val] at h1 h2 h3
    rw [identity_m, h1, h2, h3]
    ext i j
    fin_cases i <;> fin_cases j <;> simp

theorem scale_sound (x y z : K) : Sound (scaleMat x y z) := (C60_translate_scale (fun _ => 0) (fun _ => 0) x y z).2.2.2

theorem translate_sound (t : Fin 3 → K) : Sound (translateMat t) := (C60_translate_scale t (fun _ => 0) 1 1 1).2.1

theorem identity_sound : Sound (identity : Mat K) := fun _ => identity_m

theorem screenToNDC_sm : Sound (screenToNDC : Mat K) ∧
    (screenToNDC : Mat K).m = !![1 / 2, 0, 0, 0; 0, -(1 / 2), 0, 0; 0, 0, 1, 0; 1 / 2, 1 / 2, 0, 1] := by
  unfold screenToNDC
  have hp := C60_product (K := K) identity (translateMat ![1, 1, 0]) identity_sound (translate_sound _)
  have h1 := C60_product (K := K) (scaleMat (1 / 2) (1 / 2) 1) (preMul identity (translateMat ![1, 1, 0])) (scale_sound _ _ _)
    hp.2.2.2.1
  have h2 := C60_product (K := K) (mul (scaleMat (1 / 2) (1 / 2) 1) (preMul identity (translateMat ![1, 1, 0])))
    (scaleMat 1 (-1) 1) h1.2.1 (scale_sound _ _ _)
  refine ⟨h2.2.1, ?_⟩
  rw [h2.1, h1.1, hp.2.2.1, identity_m, one_mul, scale_m, scale_m, translate_m]
  ext i j
  fin_cases i <;> fin_cases j <;> simp [Matrix.mul_apply, Fin.sum_univ_four]

theorem imageToScreen_m (o : Opts K) : (imageToScreen o).m =
    !![2 / (o.right - o.left), 0, 0, 0; 0, 2 / (o.top - o.bottom), 0, 0; 0, 0, 1, 0;
      -(o.right + o.left) / (o.right - o.left), -(o.top + o.bottom) / (o.top - o.bottom), 0, 1] := by
  ext i j
  fin_cases i <;> fin_cases j <;> simp [imageToScreen, setElement, blank, identity]

/-- The matrix from the image plane to the raster. -/
def imageRaster (o : Opts K) : Matrix (Fin 4) (Fin 4) K :=
  !![frameX o / (o.right - o.left), 0, 0, 0; 0, -(frameY o) / (o.top - o.bottom), 0, 0; 0, 0, 1, 0;
     -o.left / (o.right - o.left) * frameX o, o.top / (o.top - o.bottom) * frameY o, 0, 1]

theorem imageRaster_eq (o : Opts K) (hx : o.left ≠ o.right) (hy : o.bottom ≠ o.top) :
    (imageToScreen o).m * (screenToNDC : Mat K).m * (ndcToRaster o).m = imageRaster o := by
  have h1 : o.right - o.left ≠ 0 := sub_ne_zero.mpr (Ne.symm hx)
  have h2 : o.top - o.bottom ≠ 0 := sub_ne_zero.mpr (Ne.symm hy)
  rw [imageToScreen_m, screenToNDC_sm.2, ndcToRaster, scale_m, imageRaster]
  generalize frameX o = fx
  generalize frameY o = fy
  ext i j
  fin_cases i <;> fin_cases j <;>
    simp [Matrix.mul_apply, Fin.sum_univ_four] <;> (try field_simp) <;> (try ring_nf) <;> (try simp)

theorem cameraToRaster_sm (o : Opts K) (s : K) (pre w c : Mat K) (hp : Sound pre) (hw : Sound w) (hx : o.left ≠ o.right)
    (hy : o.bottom ≠ o.top) (hc : cameraToRaster o s pre w = some c) :
    Sound c ∧ c.m = (cameraToImage o s).m * pre.m * imageRaster o := by
  unfold cameraToRaster at hc
  cases hi : inverse w with
  | none => rw [hi] at hc; simp at hc
  | some i =>
    rw [hi] at hc
    simp only [Option.map_some, Option.some.injEq] at hc
    subst hc
    obtain ⟨si, i1, i2⟩ := (C60_inverse w hw).2 i hi
    have a1 := C60_product (imageToScreen o) pre (imageToScreen_sound o) hp
    have a2 := C60_product _ (cameraToImage o s) a1.2.1 (cameraToImage_sound o s)
    have b1 := C60_product (ndcToRaster o) screenToNDC (scale_sound _ _ _) screenToNDC_sm.1
    have b2 := C60_product _ _ b1.2.1 a2.2.1
    have b3 := C60_product _ w b2.2.1 hw
    have b4 := C60_product _ i b3.2.1 si
    refine ⟨b4.2.1, ?_⟩
    show (mul (mul (mul (mul (ndcToRaster o) screenToNDC) (mul (mul (imageToScreen o) pre) (cameraToImage o s))) w) i).m = _
    rw [b4.1, b3.1, ← Matrix.mul_assoc, i1, Matrix.one_mul, b2.1, a2.1, a1.1, b1.1, ← imageRaster_eq o hx hy]
    simp only [Matrix.mul_assoc]

theorem imageRaster_apply (o : Opts K) (v : Fin 3 → K) :
    Matrix.vecMul (hom v) (imageRaster o) =
      hom (raster o.left o.right o.top o.bottom (frameX o) (frameY o) v) := by
  funext j
  fin_cases j <;>
    simp [imageRaster, hom, raster, Matrix.vecMul, dotProduct, Fin.sum_univ_four] <;> ring

theorem lastOf_step {α : Type} (f : Req K → Option α) (d : α) (reqs : List (Req K)) (q : Req K) :
    lastOf f d (reqs ++ [q]) = (f q).getD (lastOf f d reqs) := by
  unfold lastOf
  rw [List.reverse_append]
  simp only [List.reverse_cons, List.reverse_nil, List.nil_append, List.singleton_append, List.findSome?_cons]
  cases f q <;> rfl

theorem mul_col (x y : Matrix (Fin 4) (Fin 4) K) (h : y 0 3 = 0 ∧ y 1 3 = 0 ∧ y 2 3 = 0 ∧ y 3 3 = 1) (i : Fin 4) :
    (x * y) i 3 = x i 3 := by
  obtain ⟨h0, h1, h2, h3⟩ := h
  simp [Matrix.mul_apply, Fin.sum_univ_four, h0, h1, h2, h3]

/-- What the requests leave in the options. -/
theorem requests_fold (eps huge : K) (reqs : List (Req K)) :
    let o := reqs.foldl request (initial eps huge)
    (o.resX, o.resY, o.par) = lastOf formatOf (640, 480, 1) reqs ∧
    (o.farSet = true ↔ lastOf ratioOf none reqs ≠ none) ∧
    (∀ f, lastOf ratioOf none reqs = some f → o.frameRatio = f) ∧
    (o.winSet = true ↔ lastOf windowOf none reqs ≠ none) ∧
    (∀ x, lastOf windowOf none reqs = some x → (o.left, o.right, o.bottom, o.top) = x) ∧
    (o.near, o.far) = lastOf clippingOf (eps, huge) reqs ∧ o.proj = lastOf projectionOf .orthographic reqs := by
  induction reqs using List.reverseRecOn with
  | nil => simp [initial, lastOf]
  | append_singleton l q ih =>
    simp only [List.foldl_append, List.foldl_cons, List.foldl_nil, lastOf_step]
    revert ih
    generalize l.foldl request (initial eps huge) = o
    intro ih
    obtain ⟨h1, h2, h3, h4, h5, h6, h7⟩ := ih
    cases q <;> simp_all [request, formatOf, ratioOf, windowOf, clippingOf, projectionOf] <;> (try exact h5)

/-! ## Requests -/

/-! ## Matrices -/

/-! ## Vectors -/

end Verif.Core.Camera
