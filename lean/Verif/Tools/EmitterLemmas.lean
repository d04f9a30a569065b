import Verif.Tools.Emitter
import Mathlib.Tactic.Linarith
import Mathlib.Tactic.FieldSimp
import Mathlib.Tactic.Ring

/-!
Lemmas about particles on a mesh.
-/

namespace Verif.Tools.Emitter

namespace Spec

/-- Area of a flat quadrilateral without reflex angles: half the cross product of the diagonals. -/
noncomputable def quadArea (a b c d : V) : ℝ := ((c.sub a).cross (d.sub b)).mag / 2

/-- The part of a list after the first parts. -/
def chunk (nverts verts : List Nat) (k : Nat) : List Nat :=
  (verts.drop (nverts.take k).sum).take (nverts.getD k 0)

end Spec

open Spec

/-! ### Areas -/

theorem mag_scale (a : V) (k : ℝ) (hk : 0 ≤ k) : (V.mag ⟨k * a.x, k * a.y, k * a.z⟩) = k * a.mag := by
  unfold V.mag
  simp only
  rw [show k * a.x * (k * a.x) + k * a.y * (k * a.y) + k * a.z * (k * a.z) =
    k ^ 2 * (a.x * a.x + a.y * a.y + a.z * a.z) by ring, Real.sqrt_mul (by positivity), Real.sqrt_sq hk]

theorem mag_neg (a : V) : (V.mag ⟨-a.x, -a.y, -a.z⟩) = a.mag := by
  unfold V.mag; simp

theorem mag_z (t : ℝ) : V.mag ⟨0, 0, t⟩ = |t| := by
  unfold V.mag
  simp [Real.sqrt_mul_self_eq_abs]

/-! ### Faces -/

theorem faceLoop_ok (asserts : Bool) (P : List V) (verts : List Nat) :
    ∀ (ns : List Nat) (faces : List Face) (tot : ℝ) (start : Nat), (∀ n ∈ ns, n = 3 ∨ n = 4) →
      start + ns.sum ≤ verts.length → (∀ i ∈ verts, i < P.length) → tot = (faces.map Face.weight).sum →
      ∃ (fs : List Face) (t : ℝ), faceLoop asserts P verts ns faces tot start start = .ok (faces ++ fs, t) ∧
        fs.length = ns.length ∧ t = ((faces ++ fs).map Face.weight).sum ∧
        ∀ k (f : Face), fs[k]? = some f →
          f.v = (verts.drop (start + (ns.take k).sum)).take (ns.getD k 0) ∧
          f.faceVaryingIndex = start + (ns.take k).sum ∧
          ∃ ps, lookup P f.v = some ps ∧ f.weight = faceArea ps := by
  intro ns
  have look : ∀ is : List Nat, (∀ i ∈ is, i < P.length) → ∃ ps, lookup P is = some ps := by
    intro is
    induction is with
    | nil => intro _; exact ⟨[], rfl⟩
    | cons i is ih =>
      intro h
      obtain ⟨ps, e⟩ := ih (fun j hj => h j (List.mem_cons_of_mem _ hj))
      have hi := h i (List.mem_cons_self ..)
      refine ⟨P[i] :: ps, ?_⟩
      unfold lookup
      rw [e, List.getElem?_eq_getElem hi]
  induction ns with
  | nil =>
    intro faces tot start _ _ _ ht
    refine ⟨[], tot, by simp [faceLoop], rfl, by simpa using ht, ?_⟩
    intro k f hf; simp at hf
  | cons n ns ih =>
    intro faces tot start hn hl hP ht
    have h34 := hn n (List.mem_cons_self ..)
    rw [List.sum_cons] at hl
    unfold faceLoop
    rw [if_neg (by omega), if_neg (by omega)]
    obtain ⟨ps, hps⟩ := look ((verts.drop start).take n) (fun i hi =>
      hP i (List.mem_of_mem_drop (List.mem_of_mem_take hi)))
    simp only [hps]
    obtain ⟨fs, t, e, hlen, hsum, hfs⟩ := ih
      (faces ++ [⟨(verts.drop start).take n, start, faceArea ps⟩]) (tot + faceArea ps) (start + n)
      (fun m hm => hn m (List.mem_cons_of_mem _ hm)) (by omega) hP (by simp [ht])
    refine ⟨⟨(verts.drop start).take n, start, faceArea ps⟩ :: fs, t, ?_, by simp [hlen], ?_, ?_⟩
    · rw [e]; simp
    · rw [hsum]; simp
    · intro k f hf
      cases k with
      | zero =>
        simp at hf
        subst hf
        exact ⟨by simp, by simp, ps, hps, rfl⟩
      | succ k =>
        rw [List.getElem?_cons_succ] at hf
        obtain ⟨h1, h2, h3⟩ := hfs k f hf
        refine ⟨?_, ?_, h3⟩
        · rw [h1]; simp [Nat.add_assoc]
        · rw [h2]; simp [Nat.add_assoc]

/-! ### Particles -/

end Verif.Tools.Emitter
