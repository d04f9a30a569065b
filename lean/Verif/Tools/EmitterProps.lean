import Verif.Tools.EmitterLemmas

/-!
C93: particles on a mesh.
-/

namespace Verif.Tools.Emitter

open Spec

/-- C93: the area of a triangle is half the cross product of two sides. -/
theorem C93_triangle (a b c : V) : faceArea [a, b, c] = ((b.sub a).cross (c.sub a)).mag / 2 := by
  have e : triangleArea a b c = ((b.sub a).cross (c.sub a)).mag / 2 := by
    unfold triangleArea
    congr 2
    simp only [V.cross, V.sub]
    ext <;> simp only <;> ring
  simp [faceArea, e]

/-- C93: the area of a quadrilateral is right if its first and third side are parallel. -/
theorem C93_quad_partial (a b c d : V) (k : ℝ) (hk : 0 ≤ k)
    (h : c.sub d = ⟨k * (b.sub a).x, k * (b.sub a).y, k * (b.sub a).z⟩) :
    faceArea [a, b, c, d] = quadArea a b c d := by
  have hx : c.x = d.x + k * (b.x - a.x) := by have := congrArg V.x h; simp only [V.sub] at this; linarith
  have hy : c.y = d.y + k * (b.y - a.y) := by have := congrArg V.y h; simp only [V.sub] at this; linarith
  have hz : c.z = d.z + k * (b.z - a.z) := by have := congrArg V.z h; simp only [V.sub] at this; linarith
  set n : V := (b.sub a).cross (d.sub a) with hn
  have e1 : triangleArea a b c = n.mag / 2 := by
    unfold triangleArea
    congr 2
    rw [hn]
    ext <;> simp only [V.cross, V.sub, hx, hy, hz] <;> ring
  have e2 : triangleArea b c d = k * n.mag / 2 := by
    unfold triangleArea
    rw [← mag_scale n k hk]
    congr 2
    rw [hn]
    ext <;> simp only [V.cross, V.sub, hx, hy, hz] <;> ring
  have e3 : quadArea a b c d = (1 + k) * n.mag / 2 := by
    unfold quadArea
    rw [← mag_scale n (1 + k) (by linarith)]
    congr 2
    rw [hn]
    ext <;> simp only [V.cross, V.sub, hx, hy, hz] <;> ring
  rw [e3]
  simp only [faceArea, e1, e2]
  ring

/-- C93 fails for other quadrilaterals: the second triangle has the vertices 1, 2 and 3 in the place
of 0, 2 and 3, so the triangles overlap. A kite of area 2 has the weight of an area of 5/2. -/
theorem C93_quad_violated : faceArea [⟨0, 0, 0⟩, ⟨1, 0, 0⟩, ⟨2, 2, 0⟩, ⟨0, 1, 0⟩] = 5 / 2 ∧
    quadArea ⟨0, 0, 0⟩ ⟨1, 0, 0⟩ ⟨2, 2, 0⟩ ⟨0, 1, 0⟩ = 2 := by
  constructor
  · simp only [faceArea, triangleArea, V.sub, V.cross]
    norm_num [mag_z]
  · simp only [quadArea, V.sub, V.cross]
    norm_num [mag_z]

/-- C93: a mesh of triangles and quadrilaterals has a face for each of them, with its part of the
vertices, the number of vertices before it, and its part of the area of all faces. -/
theorem C93_faces_partial (asserts : Bool) (P : List V) (nverts verts : List Nat)
    (hn : ∀ n ∈ nverts, n = 3 ∨ n = 4) (hl : nverts.sum ≤ verts.length) (hP : ∀ i ∈ verts, i < P.length) :
    ∃ (faces : List Face) (areas : List ℝ), createFaceList asserts P nverts verts = .ok faces ∧
      faces.length = nverts.length ∧ areas.length = nverts.length ∧
      ∀ k (f : Face), faces[k]? = some f → f.v = chunk nverts verts k ∧
        f.faceVaryingIndex = (nverts.take k).sum ∧
        ∃ ps, lookup P f.v = some ps ∧ areas[k]? = some (faceArea ps) ∧ f.weight = faceArea ps / areas.sum := by
  obtain ⟨fs, t, e, hlen, hsum, hfs⟩ := faceLoop_ok asserts P verts nverts [] 0 0 hn (by omega) hP rfl
  rw [List.nil_append] at e hsum
  refine ⟨fs.map fun f => { f with weight := f.weight * (1 / t) }, fs.map Face.weight, ?_, by simp [hlen],
    by simp [hlen], ?_⟩
  · unfold createFaceList
    rw [e]
    show (if fs.length < nverts.length then _ else _) = _
    rw [if_neg (by omega)]
  · intro k f hf
    rw [List.getElem?_map, Option.map_eq_some_iff] at hf
    obtain ⟨g, hg, rfl⟩ := hf
    obtain ⟨h1, h2, ps, h3, h4⟩ := hfs k g hg
    simp only [Nat.zero_add] at h1 h2
    refine ⟨h1, h2, ps, h3, ?_, ?_⟩
    · rw [List.getElem?_map, hg, Option.map_some, h4]
    · show g.weight * (1 / t) = _
      rw [h4, hsum]
      ring

/-- C93: the weights of the faces are not negative, and add to 1 unless all faces are empty. -/
theorem C93_total_partial (asserts : Bool) (P : List V) (nverts verts : List Nat) (faces : List Face)
    (h : createFaceList asserts P nverts verts = .ok faces) :
    (∀ f ∈ faces, 0 ≤ f.weight) ∧
    ((∃ f ∈ faces, f.weight ≠ 0) → (faces.map Face.weight).sum = 1) := by
  have area0 : ∀ ps : List V, 0 ≤ faceArea ps := by
    intro ps
    induction ps with
    | nil => simp [faceArea]
    | cons a ps ih =>
      match ps, ih with
      | [], _ => simp [faceArea]
      | [b], _ => simp [faceArea]
      | b :: c :: rest, ih =>
        unfold faceArea triangleArea
        have := Real.sqrt_nonneg (((a.sub b).cross (b.sub c)).x * ((a.sub b).cross (b.sub c)).x +
          ((a.sub b).cross (b.sub c)).y * ((a.sub b).cross (b.sub c)).y +
          ((a.sub b).cross (b.sub c)).z * ((a.sub b).cross (b.sub c)).z)
        unfold V.mag
        linarith
  have loop : ∀ (ns : List Nat) (fs : List Face) (t : ℝ) (s v : Nat) (r : List Face × ℝ),
      faceLoop asserts P verts ns fs t s v = .ok r → (∀ f ∈ fs, 0 ≤ f.weight) →
      t = (fs.map Face.weight).sum → (∀ f ∈ r.1, 0 ≤ f.weight) ∧ r.2 = (r.1.map Face.weight).sum := by
    intro ns
    induction ns with
    | nil =>
      intro fs t s v r h h0 ht
      simp only [faceLoop, Res.ok.injEq] at h
      subst h
      exact ⟨h0, ht⟩
    | cons n ns ih =>
      intro fs t s v r h h0 ht
      unfold faceLoop at h
      by_cases c1 : n ≠ 3 ∧ n ≠ 4
      · rw [if_pos c1] at h
        cases asserts
        · exact ih fs t s v r (by simpa using h) h0 ht
        · simp at h
      · rw [if_neg c1] at h
        by_cases c2 : verts.length < s + n
        · rw [if_pos c2] at h; cases h
        · rw [if_neg c2] at h
          simp only at h
          cases hl : lookup P (List.take n (List.drop s verts)) with
          | none => rw [hl] at h; cases h
          | some ps =>
            rw [hl] at h
            refine ih _ _ _ _ r h ?_ (by simp [ht])
            intro f hf
            rcases List.mem_append.mp hf with hf | hf
            · exact h0 f hf
            · rw [List.mem_singleton] at hf
              subst hf
              exact area0 ps
  unfold createFaceList at h
  cases e : faceLoop asserts P verts nverts [] 0 0 0 with
  | abort => rw [e] at h; cases h
  | ub => rw [e] at h; cases h
  | ok r =>
    rw [e] at h
    obtain ⟨h0, hs⟩ := loop _ _ _ _ _ r e (by simp) (by simp)
    have h' : (if r.1.length < nverts.length then Res.ub
      else Res.ok (r.1.map fun f => { f with weight := f.weight * (1 / r.2) })) = Res.ok faces := h
    by_cases c : r.1.length < nverts.length
    · rw [if_pos c] at h'; cases h'
    · rw [if_neg c, Res.ok.injEq] at h'
      subst h'
      have hsn : 0 ≤ (r.1.map Face.weight).sum := List.sum_nonneg (by
        intro x hx
        obtain ⟨f, hf, rfl⟩ := List.mem_map.mp hx
        exact h0 f hf)
      constructor
      · intro f hf
        obtain ⟨g, hg, rfl⟩ := List.mem_map.mp hf
        have := h0 g hg
        show 0 ≤ g.weight * (1 / r.2)
        rw [hs]
        positivity
      · rintro ⟨f, hf, hne⟩
        obtain ⟨g, hg, rfl⟩ := List.mem_map.mp hf
        have hr : r.2 ≠ 0 := by
          intro z
          apply hne
          show g.weight * (1 / r.2) = 0
          rw [z]; simp
        rw [List.map_map]
        have : (Face.weight ∘ fun f : Face => { f with weight := f.weight * (1 / r.2) }) =
            fun f => f.weight * (1 / r.2) := rfl
        rw [this, List.sum_map_mul_right, ← hs]
        field_simp

/-- C93 fails for other faces: they fail an assertion, or without assertions lead to writing past the
end of the faces. -/
theorem C93_faces_violated (P : List V) (verts : List Nat) :
    createFaceList true P [5] verts = .abort ∧ createFaceList false P [5] verts = .ub := by
  constructor
  · unfold createFaceList faceLoop
    simp [Res.bind]
  · unfold createFaceList faceLoop
    simp [Res.bind, faceLoop]

/-- C93: the number of particles of a face is its part of all particles, rounded down or up, up if the
random number is below the rest. -/
theorem C93_count (w : ℝ) (tot : Nat) (r : ℝ) (h0 : 0 ≤ r) :
    |(numParticles w tot r : ℝ) - w * tot| < 1 ∧
    (numParticles w tot r = ⌊w * tot⌋ + 1 ↔ r < Int.fract (w * tot)) ∧
    (numParticles w tot r = ⌊w * tot⌋ ↔ Int.fract (w * tot) ≤ r) := by
  have f0 := Int.fract_nonneg (w * tot)
  have f1 := Int.fract_lt_one (w * tot)
  have e : Int.fract (w * tot) = w * tot - ⌊w * tot⌋ := rfl
  unfold numParticles
  simp only
  by_cases h : w * tot - ⌊w * tot⌋ > r
  · rw [if_pos h]
    refine ⟨?_, ⟨fun _ => by rw [e]; exact h, fun _ => rfl⟩, ⟨fun h' => by omega, fun h' => ?_⟩⟩
    · rw [abs_lt]; push_cast; constructor <;> linarith
    · rw [e] at h'; exact absurd h (not_lt.mpr h')
  · rw [if_neg h]
    refine ⟨?_, ⟨fun h' => by omega, fun h' => ?_⟩, ⟨fun _ => by rw [e]; exact not_lt.mp h, fun _ => rfl⟩⟩
    · rw [abs_lt]; constructor <;> linarith
    · rw [e] at h'; exact absurd h' h

/-- C93: positions on the face stay within it. -/
theorem C93_wrapped (offset q : ℝ) (h0 : 0 ≤ offset) (h1 : offset ≤ 1) (hq0 : 0 ≤ q) (hq1 : q < 1) :
    0 ≤ wrapped offset q ∧ wrapped offset q ≤ 1 ∧
    (wrapped offset q = offset + q ∨ wrapped offset q = offset + q - 1) := by
  unfold wrapped
  by_cases h : offset + q > 1
  · rw [if_pos h]; exact ⟨by linarith, by linarith, Or.inr rfl⟩
  · rw [if_neg h]; exact ⟨by linarith, by linarith, Or.inl rfl⟩

/-- C93: the weights of the vertices are not negative and add to 1; a triangle has none for a fourth
vertex. -/
theorem C93_weights (n : Nat) (u v : ℝ) (hu0 : 0 ≤ u) (hu1 : u ≤ 1) (hv0 : 0 ≤ v) (hv1 : v ≤ 1) :
    (weights n u v).length = 4 ∧ (∀ w ∈ weights n u v, 0 ≤ w) ∧ (weights n u v).sum = 1 ∧
    (n = 3 → (weights n u v)[3]? = some 0) := by
  unfold weights
  by_cases hn : n = 3
  · rw [if_pos hn]
    by_cases h : u + v > 1
    · simp only [if_pos h]
      refine ⟨rfl, ?_, ?_, fun _ => rfl⟩
      · intro w hw
        simp only [List.mem_cons, List.not_mem_nil, or_false] at hw
        rcases hw with rfl | rfl | rfl | rfl <;> linarith
      · simp only [List.sum_cons, List.sum_nil]; ring
    · simp only [if_neg h]
      refine ⟨rfl, ?_, ?_, fun _ => rfl⟩
      · intro w hw
        simp only [List.mem_cons, List.not_mem_nil, or_false] at hw
        rcases hw with rfl | rfl | rfl | rfl <;> linarith
      · simp only [List.sum_cons, List.sum_nil]; ring
  · rw [if_neg hn]
    refine ⟨rfl, ?_, ?_, fun h => absurd h hn⟩
    · intro w hw
      have a : 0 ≤ 1 - u := by linarith
      have b : 0 ≤ 1 - v := by linarith
      simp only [List.mem_cons, List.not_mem_nil, or_false] at hw
      rcases hw with rfl | rfl | rfl | rfl <;> positivity
    · simp only [List.sum_cons, List.sum_nil]; ring

/-- C93: the corners of the unit square are the vertices of a quadrilateral, in order around it; the
positions of a triangle are those of half the square, where the other half is turned onto it. -/
theorem C93_corners (u v : ℝ) : weights 4 0 0 = [1, 0, 0, 0] ∧ weights 4 0 1 = [0, 1, 0, 0] ∧
    weights 4 1 1 = [0, 0, 1, 0] ∧ weights 4 1 0 = [0, 0, 0, 1] ∧
    (u + v ≤ 1 → weights 3 u v = [1 - u - v, u, v, 0]) ∧
    (1 < u + v → weights 3 u v = weights 3 (1 - u) (1 - v)) := by
  refine ⟨by norm_num [weights], by norm_num [weights], by norm_num [weights], by norm_num [weights], ?_, ?_⟩
  · intro h; simp [weights, not_lt.mpr h]
  · intro h
    have h' : ¬ (1 - u + (1 - v) > 1) := by linarith
    simp [weights, h, h']

/-- C93: each component of an interpolated value is the weighted mean of those of the vertices of the
face. -/
theorem C93_interpolated (c : Cls) (f : Face) (stride k : Nat) (value : List ℝ) (ws : List ℝ)
    (src : Nat → Nat) (hs : ∀ i < f.v.length, sourceIndex c f i = some (src i))
    (hv : ∀ i < f.v.length, stride * src i + k < value.length) (hw : f.v.length ≤ ws.length) :
    interpolate c f stride k value 0 ws 0 = .ok (((List.range f.v.length).map fun i =>
      value.getD (stride * src i + k) 0 * ws.getD i 0).sum) := by
  have key : ∀ (ws' : List ℝ) (i : Nat) (acc : ℝ), i ≤ f.v.length → f.v.length ≤ i + ws'.length →
      (∀ j, ws'.getD j 0 = ws.getD (i + j) 0) →
      interpolate c f stride k value i ws' acc = .ok (acc + ((List.range' i (f.v.length - i)).map fun i =>
        value.getD (stride * src i + k) 0 * ws.getD i 0).sum) := by
    intro ws'
    induction ws' with
    | nil =>
      intro i acc hi hl _
      have : f.v.length - i = 0 := by simp at hl; omega
      simp [interpolate, this]
    | cons w ws' ih =>
      intro i acc hi hl hg
      unfold interpolate
      by_cases h : i < f.v.length
      · rw [if_pos h]
        simp only [hs i h, List.getElem?_eq_getElem (hv i h)]
        rw [ih (i + 1) _ (by omega) (by simp at hl; omega) (by
          intro j
          have := hg (j + 1)
          rw [List.getD_cons_succ] at this
          rw [this]; congr 1; omega)]
        have : f.v.length - i = (f.v.length - (i + 1)) + 1 := by omega
        rw [this, List.range'_succ, List.map_cons, List.sum_cons]
        have h0 := hg 0
        rw [List.getD_cons_zero, Nat.add_zero] at h0
        rw [← h0, List.getD_eq_getElem?_getD, List.getElem?_eq_getElem (hv i h), Option.getD_some]
        congr 1
        ring
      · rw [if_neg h]
        have : f.v.length - i = 0 := by omega
        simp [this]
  rw [key ws 0 0 (Nat.zero_le _) (by simpa using hw) (by intro j; simp)]
  simp [List.range_eq_range']

/-- C93: values for vertices come from the vertices of the face, values for corners from its corners;
other classes are not interpolated. -/
theorem C93_source (f : Face) (i : Nat) (hi : i < f.v.length) :
    sourceIndex .vertex f i = some f.v[i] ∧ sourceIndex .varying f i = some f.v[i] ∧
    sourceIndex .facevarying f i = some (f.faceVaryingIndex + i) ∧
    sourceIndex .facevertex f i = some (f.faceVaryingIndex + i) ∧
    sourceIndex .constant f i = none ∧ sourceIndex .uniform f i = none := by
  simp [sourceIndex, hi]

/-- Non-vacuity: a mesh of a triangle and a parallelogram. -/
example : ∃ faces, createFaceList true [⟨0, 0, 0⟩, ⟨1, 0, 0⟩, ⟨1, 1, 0⟩, ⟨0, 1, 0⟩] [3, 4] [0, 1, 2, 0, 1, 2, 3] =
    .ok faces ∧ faces.length = 2 := by
  obtain ⟨fs, _, h1, h2, _⟩ := C93_faces_partial true [⟨0, 0, 0⟩, ⟨1, 0, 0⟩, ⟨1, 1, 0⟩, ⟨0, 1, 0⟩] [3, 4]
    [0, 1, 2, 0, 1, 2, 3] (by decide) (by decide) (by decide)
  exact ⟨fs, h1, h2⟩

end Verif.Tools.Emitter
