import Verif.Geom.GenPolyLemmas

/-!
# C64: general polygons are cut into triangles that cover them

The words of the statements (`loopSum`, `winding`, `against`, `inTri`, ...) are in `GenPolyLemmas`.
-/

namespace Verif.Geom.GenPoly

variable {K : Type} [Field K] [LinearOrder K]

/-- What holds when all triangles were found: `n` vertices and two more for each hole give two triangles less. -/
def Complete (l : List Nat) (ls : List (List Nat)) (ts : List (Nat × Nat × Nat)) : Prop :=
  3 ≤ l.length ∧ ts.length + 2 = l.length + (ls.map List.length).sum + 2 * ls.length

/-- The points of a loop in the plane. -/
def points (P : Nat → V3 K) (a : Axis) (l : List Nat) : List (K × K) := l.map fun v => proj a (P v)

/-- The corners of a triangle in the plane. -/
def tri (P : Nat → V3 K) (a : Axis) (t : Nat × Nat × Nat) : (K × K) × (K × K) × (K × K) := corners (fun v => proj a (P v)) t

/-- The area between the first loop and the others. -/
def between (P : Nat → V3 K) (a : Axis) (l : List Nat) (ls : List (List Nat)) : K :=
  loopSum cross (points P a l) + (ls.map fun l' => loopSum cross (against (points P a l) (points P a l'))).sum

theorem general_complete {tie : Nat × Nat → Nat × Nat → Bool} {P : Nat → V3 K} {ax : List Nat → Axis} {o : Bool} {a : Axis}
    {l : List Nat} {ls : List (List Nat)} {ts : List (Nat × Nat × Nat)} (hax : ∀ l' ∈ l :: ls, ax l' = a)
    (h : generalTris tie P ax o (l :: ls) = some ts) (hc : Complete l ls ts) {G : Type} [AddCommGroup G]
    (w : K × K → K × K → G) (hw : ∀ a b, w b a = - w a b) :
    (ts.map fun t => triSum w (tri P a t)).sum =
      loopSum w (points P a l) + (ls.map fun l' => loopSum w (against (points P a l) (points P a l'))).sum := by
  simp only [generalTris, Option.map_eq_some_iff] at h
  obtain ⟨g, hg, rfl⟩ := h
  obtain ⟨hga, _, _, _, hlen, _, _⟩ := generalPoly_spec hax hg
  have hs := triangulate_sum (P := P) (g := g) (by rw [hlen]; have := hc.1; omega) (by rw [hlen]; exact hc.2) w hw
  rw [hga] at hs
  have := general_sum hax hg w hw
  unfold tri points
  rw [hs, this]

/-- The areas of the triangles add up to the area between the loops, with the sign of the first loop as it was given. -/
theorem C64_area {tie : Nat × Nat → Nat × Nat → Bool} {P : Nat → V3 K} {ax : List Nat → Axis} {o : Bool} {a : Axis}
    {l : List Nat} {ls : List (List Nat)} {ts : List (Nat × Nat × Nat)} (hax : ∀ l' ∈ l :: ls, ax l' = a)
    (h : generalTris tie P ax o (l :: ls) = some ts) (hc : Complete l ls ts) :
    (ts.map fun t => area2 (tri P a t)).sum = between P a l ls := by
  have := general_complete hax h hc cross cross_anti
  simp only [triSum_cross] at this
  exact this

/-- Every point is as often in triangles as the loops go around it, counted with directions. Each triangle counts once if
the point is inside of it, and not at all else (`C64_triangle`). -/
theorem C64_winding {tie : Nat × Nat → Nat × Nat → Bool} {P : Nat → V3 K} {ax : List Nat → Axis} {o : Bool} {a : Axis}
    {l : List Nat} {ls : List (List Nat)} {ts : List (Nat × Nat × Nat)} (hax : ∀ l' ∈ l :: ls, ax l' = a)
    (h : generalTris tie P ax o (l :: ls) = some ts) (hc : Complete l ls ts) (p : K × K) :
    (ts.map fun t => winding p [(tri P a t).1, (tri P a t).2.1, (tri P a t).2.2]).sum =
      winding p (points P a l) + (ls.map fun l' => winding p (against (points P a l) (points P a l'))).sum := by
  have := general_complete hax h hc (ray p) (ray_anti p)
  unfold winding
  rw [← this]
  congr 1
  apply List.map_congr_left
  intro t _
  simp [loopSum, pathSum, triSum, add_assoc]

/-- How often a triangle goes around a point. -/
theorem C64_triangle [IsStrictOrderedRing K] (p : K × K) (t : (K × K) × (K × K) × (K × K)) (h : offLines p t) :
    winding p [t.1, t.2.1, t.2.2] = if inTri p t then (if 0 < area2 t then 1 else -1) else 0 := by
  obtain ⟨h1, h2, h3⟩ := h
  have e : winding p [t.1, t.2.1, t.2.2] = triSum (ray p) (t.1, t.2.1, t.2.2) := by
    simp [winding, loopSum, pathSum, triSum, add_assoc]
  have ha : area2 t = det t.1 t.2.1 p + det t.2.1 t.2.2 p + det t.2.2 t.1 p := by
    unfold area2 det; ring
  rw [e, triSum_ray p _ _ _ h1 h2 h3]
  unfold sideSum
  by_cases c1 : 0 < det t.1 t.2.1 p ∧ 0 < det t.2.1 t.2.2 p ∧ 0 < det t.2.2 t.1 p
  · rw [if_pos c1, if_pos (show inTri p t from Or.inl c1), if_pos (by rw [ha]; linarith [c1.1, c1.2.1, c1.2.2])]
  · rw [if_neg c1]
    by_cases c2 : det t.1 t.2.1 p < 0 ∧ det t.2.1 t.2.2 p < 0 ∧ det t.2.2 t.1 p < 0
    · rw [if_pos c2, if_pos (show inTri p t from Or.inr c2), if_neg (by rw [ha]; linarith [c2.1, c2.2.1, c2.2.2])]
    · rw [if_neg c2, if_neg (show ¬ inTri p t by rintro (c | c); exacts [c1 c, c2 c])]

/-- All triangles but the last one have the direction of the area between the loops, that is the one in which the first
loop was given. -/
theorem C64_direction [IsStrictOrderedRing K] {tie : Nat × Nat → Nat × Nat → Bool} {P : Nat → V3 K} {ax : List Nat → Axis}
    {o : Bool} {a : Axis} {l : List Nat} {ls : List (List Nat)} {ts : List (Nat × Nat × Nat)}
    (hax : ∀ l' ∈ l :: ls, ax l' = a) (h : generalTris tie P ax o (l :: ls) = some ts) (hc : Complete l ls ts)
    (h0 : between P a l ls ≠ 0) : ∀ t ∈ ts.take (ts.length - 1), 0 < between P a l ls * area2 (tri P a t) := by
  simp only [generalTris, Option.map_eq_some_iff] at h
  obtain ⟨g, hg, rfl⟩ := h
  obtain ⟨hga, hgv, hgo, _, hlen, _, _⟩ := generalPoly_spec hax hg
  have hsum := general_sum hax hg cross cross_anti
  have hT : between P a l ls = (if g.reverse then - loopSum cross (g.verts.map fun v => proj a (P v))
      else loopSum cross (g.verts.map fun v => proj a (P v))) := hsum.symm
  intro t ht
  have hn : (triangulate P g).length - 1 = g.verts.length - 3 := by
    have := hc.2; rw [hlen]; omega
  rw [hn] at ht
  unfold triangulate at ht
  rw [← List.map_take] at ht
  obtain ⟨t', ht', rfl⟩ := List.mem_map.1 ht
  have hear := clip_ear (g.pt P) g.orient (g.verts.length - 3) (List.range g.verts.length)
    (by have := hc.1; simp; omega) t' ht'
  rw [hgo] at hear
  have hc' : tri P a (emit g t') = corners (fun v => proj g.axis (P v)) (emit g t') := by rw [hga]; rfl
  rw [hc', emit_corners]
  generalize loopSum cross (g.verts.map fun v => proj a (P v)) = A at hT hear
  have hd : dir (g.verts.map fun v => proj a (P v)) = if 0 ≤ loopSum cross (g.verts.map fun v => proj a (P v)) then .acw else .cw := rfl
  rw [hd] at hear
  by_cases hr : g.reverse = true
  · rw [if_pos hr] at hT ⊢
    have e : area2 (g.pt P t'.2.2, g.pt P t'.2.1, g.pt P t'.1) = - det (g.pt P t'.1) (g.pt P t'.2.1) (g.pt P t'.2.2) :=
      det_rev _ _ _
    rw [e]
    unfold calcDet at hear
    have hA : loopSum cross (g.verts.map fun v => proj a (P v)) = - between P a l ls := by
      have := hsum; rw [if_pos hr] at this
      unfold between points; rw [← this]; ring
    rw [hA] at hear
    rcases lt_or_gt_of_ne h0 with hneg | hpos
    · rw [if_pos (by linarith), orientOf_acw] at hear
      nlinarith
    · rw [if_neg (by linarith), orientOf_cw] at hear
      nlinarith
  · rw [if_neg hr] at hT ⊢
    have e : area2 (g.pt P t'.1, g.pt P t'.2.1, g.pt P t'.2.2) = det (g.pt P t'.1) (g.pt P t'.2.1) (g.pt P t'.2.2) := rfl
    rw [e]
    unfold calcDet at hear
    have hA : loopSum cross (g.verts.map fun v => proj a (P v)) = between P a l ls := by
      have := hsum; rw [if_neg hr] at this
      unfold between points; rw [← this]
    rw [hA] at hear
    rcases lt_or_gt_of_ne h0 with hneg | hpos
    · rw [if_neg (by linarith), orientOf_cw] at hear
      nlinarith
    · rw [if_pos (by linarith), orientOf_acw] at hear
      nlinarith

/-- A point is in exactly as many triangles as the loops go around it. Inside of a polygon and outside of its holes this is
one, else none. Missing: that the last triangle is not turned over follows from the loops not crossing each other, which is
assumed here by `hdir`; that all triangles are found is proved for convex polygons (`C64_convex`) only. -/
theorem C64_cover_partial [IsStrictOrderedRing K] {tie : Nat × Nat → Nat × Nat → Bool} {P : Nat → V3 K}
    {ax : List Nat → Axis} {o : Bool} {a : Axis} {l : List Nat} {ls : List (List Nat)} {ts : List (Nat × Nat × Nat)}
    (hax : ∀ l' ∈ l :: ls, ax l' = a) (h : generalTris tie P ax o (l :: ls) = some ts) (hc : Complete l ls ts)
    (hdir : ∀ t ∈ ts, 0 < area2 (tri P a t)) (p : K × K) (hp : ∀ t ∈ ts, offLines p (tri P a t)) :
    (ts.countP (fun t => decide (inTri p (tri P a t))) : Int) =
      winding p (points P a l) + (ls.map fun l' => winding p (against (points P a l) (points P a l'))).sum := by
  rw [← C64_winding hax h hc p]
  clear h hc
  induction ts with
  | nil => rfl
  | cons t ts ih =>
    have hi := ih (fun t' h' => hdir t' (by simp [h'])) (fun t' h' => hp t' (by simp [h']))
    rw [List.map_cons, List.sum_cons, C64_triangle p _ (hp t (by simp)), ← hi, if_pos (hdir t (by simp))]
    by_cases hin : inTri p (tri P a t)
    · rw [List.countP_cons_of_pos (by simpa using hin), if_pos hin]; push_cast; ring
    · rw [List.countP_cons_of_neg (by simpa using hin), if_neg hin]; ring

/-- Convex polygons are cut completely, into triangles of their direction, whatever the attribute `Orientation` is. -/
theorem C64_convex [IsStrictOrderedRing K] (tie : Nat × Nat → Nat × Nat → Bool) (P : Nat → V3 K) (ax : List Nat → Axis)
    (o : Bool) (l : List Nat) (h3 : 3 ≤ l.length) (d : Orient) (hd : d ≠ .unknown) (hT : Turns d (points P (ax l) l)) :
    ∃ ts, generalTris tie P ax o [l] = some ts ∧ Complete l [] ts ∧ ∀ t ∈ ts, orientOf (area2 (tri P (ax l) t)) = d := by
  have hl : l ≠ [] := by intro h; subst h; simp at h3
  have hdl := hT.dir (by simpa [points] using h3) hd
  obtain ⟨g0, e0, ha0, hcase⟩ := orientLoop_eq P (outerWant o) l (ax l) hl
  have hlen : g0.verts.length = l.length := by rcases hcase with h | h <;> simp [h.1]
  have hne : g0.verts ≠ [] := by intro h0; rw [h0] at hlen; simp at hlen; omega
  have hpoly : generalPoly tie P ax o [l] = some { g0 with orient := dir (g0.verts.map fun v => proj (ax l) (P v)) } := by
    simp only [generalPoly, loopPoly, e0, Option.bind_some, addHoles, calcOrientation_eq P g0 hne, ha0]
  -- the direction of the loop as it is cut
  obtain ⟨d', hd', hT', hdd⟩ : ∃ d', d' ≠ Orient.unknown ∧ Turns d' (g0.verts.map fun v => proj (ax l) (P v)) ∧
      (if g0.reverse then d'.flip else d') = d := by
    rcases hcase with h | h
    · exact ⟨d, hd, by rw [h.1]; exact hT, by rw [h.2.1]; rfl⟩
    · refine ⟨d.flip, ?_, ?_, ?_⟩
      · cases d <;> simp [Orient.flip] at hd ⊢
      · rw [h.1, List.map_reverse]; exact hT.reverse
      · rw [h.2.1]; cases d <;> rfl
  have hdir' := hT'.dir (by rw [List.length_map, hlen]; exact h3) hd'
  rw [hdir'] at hpoly
  generalize hG : ({ g0 with orient := d' } : Poly) = g at hpoly
  have hgv : g.verts = g0.verts := by rw [← hG]
  have hga : g.axis = ax l := by rw [← hG]; exact ha0
  have hgo : g.orient = d' := by rw [← hG]
  have hgr : g.reverse = g0.reverse := by rw [← hG]
  have hTr : Turns d' ((List.range g.verts.length).map (g.pt P)) := by
    rw [pt_map, hga, hgv]; exact hT'
  obtain ⟨hcl, hall⟩ := clip_convex (g.pt P) g.orient (g.verts.length - 3) (List.range g.verts.length)
    (by rw [List.length_range, hgv, hlen]; omega) (by rw [hgo]; exact hTr)
  refine ⟨triangulate P g, by simp only [generalTris, hpoly, Option.map_some], ⟨h3, ?_⟩, ?_⟩
  · unfold triangulate
    rw [List.length_map, hcl, hgv, hlen]
    simp only [List.map_nil, List.sum_nil, List.length_nil]; omega
  · intro t ht
    obtain ⟨t', ht', rfl⟩ := List.mem_map.1 ht
    have hd1 := hall t' ht'
    rw [hgo] at hd1
    have hc' : tri P (ax l) (emit g t') = corners (fun v => proj g.axis (P v)) (emit g t') := by rw [hga]; rfl
    rw [hc', emit_corners, hgr]
    by_cases hr : g0.reverse = true
    · rw [if_pos hr] at hdd ⊢
      rw [← hdd, ← hd1]
      unfold calcDet area2
      rw [det_rev, orientOf_neg]
    · rw [if_neg hr] at hdd ⊢
      rw [← hdd, ← hd1]; rfl

/-- With loops that are not empty, there is a result, and the triangles have vertices of the loops only. -/
theorem C64_total (tie : Nat × Nat → Nat × Nat → Bool) (P : Nat → V3 K) (ax : List Nat → Axis) (o : Bool)
    (loops : List (List Nat)) (h0 : loops ≠ []) (h : ∀ l ∈ loops, l ≠ []) :
    ∃ ts, generalTris tie P ax o loops = some ts ∧
      ∀ t ∈ ts, t.1 ∈ loops.flatten ∧ t.2.1 ∈ loops.flatten ∧ t.2.2 ∈ loops.flatten :=
  generalTris_mem h0 h

/-- A loop without vertices, of which the request only warns, reads outside of the vertices. -/
theorem C64_empty_violated (tie : Nat × Nat → Nat × Nat → Bool) (P : Nat → V3 K) (ax : List Nat → Axis) (o : Bool)
    (ls : List (List Nat)) : generalTris tie P ax o ([] :: ls) = none := by
  simp [generalTris, generalPoly, loopPoly, orientLoop_nil]

/-- Two loops are joined where their vertices are closest, whatever decides between equal distances. -/
theorem C64_bridge (tie : Nat × Nat → Nat × Nat → Bool) (P : Nat → V3 K) (g h : Poly) (hg : g.verts ≠ []) (hh : h.verts ≠ []) :
    ∃ A1 A2 B1 B2 : List Nat, ∃ x y : Nat, g.verts = A1 ++ x :: A2 ∧ h.verts = B1 ++ y :: B2 ∧
      (combine tie P g h).verts = (x :: A2) ++ (A1 ++ [x]) ++ (y :: B2) ++ (B1 ++ [y]) ∧
      ∀ x' ∈ g.verts, ∀ y' ∈ h.verts,
        dist2 (proj g.axis (P x)) (proj h.axis (P y)) ≤ dist2 (proj g.axis (P x')) (proj h.axis (P y')) := by
  obtain ⟨h1, h2, h3⟩ := closest_spec tie (g.pt P) (h.pt P) _ _ (List.length_pos_of_ne_nil hg) (List.length_pos_of_ne_nil hh)
  have hpt : ∀ (q : Poly) (i : Nat) (hi : i < q.verts.length), q.pt P i = proj q.axis (P q.verts[i]) := by
    intro q i hi; simp [Poly.pt, List.getD_eq_getElem?_getD, hi]
  have key : ∀ (L : List Nat) (n : Nat) (hn : n < L.length), L = L.take n ++ L[n] :: L.drop (n + 1) := by
    intro L n hn
    conv_lhs => rw [← List.take_append_drop n L, List.drop_eq_getElem_cons hn]
  refine ⟨_, _, _, _, _, _, key _ _ h1, key _ _ h2, ?_, ?_⟩
  · show joined _ _ _ _ = _
    unfold joined
    rw [List.drop_eq_getElem_cons h1, List.drop_eq_getElem_cons h2]
    simp
  · intro x' hx y' hy
    obtain ⟨i, hi, rfl⟩ := List.mem_iff_getElem.1 hx
    obtain ⟨j, hj, rfl⟩ := List.mem_iff_getElem.1 hy
    have := h3 i j hi hj
    rw [hpt g _ h1, hpt h _ h2, hpt g _ hi, hpt h _ hj] at this
    exact this

/-! ## What goes wrong -/

/-- An L-shaped polygon around a triangular hole. -/
def holePts : Nat → V3 ℚ
  | 0 => ⟨0, 0, 0⟩
  | 1 => ⟨8, 0, 0⟩
  | 2 => ⟨8, 3, 0⟩
  | 3 => ⟨1, 3, 0⟩
  | 4 => ⟨4, 4, 0⟩
  | 5 => ⟨0, 8, 0⟩
  | 6 => ⟨4, 2, 0⟩
  | 7 => ⟨5, 1, 0⟩
  | _ => ⟨3, 1, 0⟩

theorem combine_tie (tie tie' : Nat × Nat → Nat × Nat → Bool) (P : Nat → V3 K) (g h : Poly) (hg : 0 < g.verts.length)
    (hh : 0 < h.verts.length) (i j : Nat) (hi : i < g.verts.length) (hj : j < h.verts.length)
    (hu : ∀ i' < g.verts.length, ∀ j' < h.verts.length,
      dist2 (g.pt P i') (h.pt P j') ≤ dist2 (g.pt P i) (h.pt P j) → i' = i ∧ j' = j) :
    combine tie P g h = combine tie' P g h := by
  have k : ∀ t, closest t (g.pt P) (h.pt P) g.verts.length h.verts.length = (i, j) := by
    intro t
    obtain ⟨h1, h2, h3⟩ := closest_spec t (g.pt P) (h.pt P) _ _ hg hh
    have := hu _ h1 _ h2 (h3 i j hi hj)
    exact Prod.ext this.1 this.2
  unfold combine
  rw [k tie, k tie']

/-- The vertices that are closest need not see each other: the bridge to the hole crosses the polygon, only four of nine
triangles are found, and a point inside is in none of them. -/
theorem C64_hole_violated (tie : Nat × Nat → Nat × Nat → Bool) :
    ∃ ts, generalTris tie holePts (fun _ => .xy) true [[0, 1, 2, 3, 4, 5], [6, 7, 8]] = some ts ∧ ts.length = 4 ∧
      winding ((1, 3 / 2) : ℚ × ℚ) (points holePts .xy [0, 1, 2, 3, 4, 5]) = 1 ∧
      winding ((1, 3 / 2) : ℚ × ℚ) (points holePts .xy [6, 7, 8]) = 0 ∧
      ∀ t ∈ ts, ¬ inTri ((1, 3 / 2) : ℚ × ℚ) (tri holePts .xy t) := by
  have e : generalTris tie holePts (fun _ => .xy) true [[0, 1, 2, 3, 4, 5], [6, 7, 8]] =
      generalTris (fun _ _ => false) holePts (fun _ => .xy) true [[0, 1, 2, 3, 4, 5], [6, 7, 8]] := by
    have e1 : orientLoop holePts (outerWant true) ⟨[0, 1, 2, 3, 4, 5], .unknown, .xy, false⟩
        = some ⟨[0, 1, 2, 3, 4, 5], .acw, .xy, false⟩ := by decide +kernel
    have e2 : orientLoop holePts (holeWant true) ⟨[6, 7, 8], .unknown, .xy, false⟩
        = some ⟨[6, 7, 8], .cw, .xy, false⟩ := by decide +kernel
    have e3 : combine tie holePts ⟨[0, 1, 2, 3, 4, 5], .acw, .xy, false⟩ ⟨[6, 7, 8], .cw, .xy, false⟩ =
        combine (fun _ _ => false) holePts ⟨[0, 1, 2, 3, 4, 5], .acw, .xy, false⟩ ⟨[6, 7, 8], .cw, .xy, false⟩ :=
      combine_tie _ _ _ _ _ (by decide) (by decide) 4 0 (by decide) (by decide) (by decide +kernel)
    simp only [generalTris, generalPoly, loopPoly, e1, Option.bind_some, addHoles, e2, e3]
  rw [e]
  refine ⟨[(6, 4, 5), (4, 6, 7), (8, 6, 5), (1, 2, 3)], ?_⟩
  decide +kernel

/-- A wall over the diagonal of the ground. -/
def wallPts : Nat → V3 ℚ
  | 0 => ⟨0, 0, 0⟩
  | 1 => ⟨2, 2, 0⟩
  | 2 => ⟨2, 2, 1⟩
  | _ => ⟨0, 0, 1⟩

/-- A wall whose normal has two equal components is projected along the third one, which is zero: nothing is left of it.
This holds for both of the ways to choose the axis. -/
theorem C64_axis_violated (tie : Nat × Nat → Nat × Nat → Bool) (o : Bool) :
    calcAxis wallPts [0, 1, 2, 3] = .xy ∧ boxAxis [wallPts 0, wallPts 1, wallPts 2, wallPts 3] = .xy ∧
    generalTris tie wallPts (fun _ => .xy) o [[0, 1, 2, 3]] = some [] ∧
    ∀ ax, ax ≠ Axis.xy → (generalTris tie wallPts (fun _ => ax) o [[0, 1, 2, 3]]).map List.length = some 2 := by
  have e : ∀ ax, generalTris tie wallPts (fun _ => ax) o [[0, 1, 2, 3]] =
      generalTris (fun _ _ => false) wallPts (fun _ => ax) o [[0, 1, 2, 3]] := fun _ => rfl
  refine ⟨by decide +kernel, by decide +kernel, ?_, ?_⟩
  · rw [e]; cases o <;> decide +kernel
  · intro ax hax
    rw [e]
    cases ax
    · exact absurd rfl hax
    · cases o <;> decide +kernel
    · cases o <;> decide +kernel

/-- The vector across the turn at a corner. -/
def turnVec (a b c : V3 K) : V3 K :=
  ⟨(b.y - a.y) * (c.z - b.z) - (b.z - a.z) * (c.y - b.y), (b.z - a.z) * (c.x - b.x) - (b.x - a.x) * (c.z - b.z),
    (b.x - a.x) * (c.y - b.y) - (b.y - a.y) * (c.x - b.x)⟩

/-- One component of the vector is greater than the others. -/
def OneGreatest (n : V3 K) : Prop :=
  (|n.y| < |n.x| ∧ |n.z| < |n.x|) ∨ (|n.x| < |n.y| ∧ |n.z| < |n.y|) ∨ (|n.x| < |n.z| ∧ |n.y| < |n.z|)

theorem axis_inj [IsStrictOrderedRing K] (N c : V3 K) (d : K) (hN : OneGreatest N)
    (h1 : N.x * c.y = N.y * c.x) (h2 : N.y * c.z = N.z * c.y) (h3 : N.x * c.z = N.z * c.x)
    (hc : c.x ≠ 0 ∨ c.y ≠ 0 ∨ c.z ≠ 0) (p q : V3 K) (hp : N.x * p.x + N.y * p.y + N.z * p.z = d)
    (hq : N.x * q.x + N.y * q.y + N.z * q.z = d)
    (he : proj (axisOfNormal ⟨|c.x|, |c.y|, |c.z|⟩) p = proj (axisOfNormal ⟨|c.x|, |c.y|, |c.z|⟩) q) : p = q := by
  have lt_of : ∀ u v cu cv : K, u * cv = v * cu → |v| < |u| → (cu ≠ 0) → |cv| < |cu| := by
    intro u v cu cv h hlt hcu
    have hu : 0 < |u| := (abs_nonneg v).trans_lt hlt
    have : |u| * |cv| = |v| * |cu| := by rw [← abs_mul, ← abs_mul, h]
    have hcu' : 0 < |cu| := abs_pos.2 hcu
    have h4 : |u| * |cv| < |u| * |cu| := by
      rw [this]; exact mul_lt_mul_of_pos_right hlt hcu'
    exact lt_of_mul_lt_mul_left h4 hu.le
  have nz : ∀ u v : K, |v| < |u| → u ≠ 0 := by
    intro u v h h0; rw [h0, abs_zero] at h; exact absurd h (not_lt.2 (abs_nonneg v))
  rcases hN with ⟨a1, a2⟩ | ⟨a1, a2⟩ | ⟨a1, a2⟩
  · have hu := nz _ _ a1
    have hcx : c.x ≠ 0 := by
      intro h0
      rw [h0, mul_zero] at h1 h3
      rcases hc with h | h | h
      · exact h h0
      · exact h ((mul_eq_zero.1 h1).resolve_left hu)
      · exact h ((mul_eq_zero.1 h3).resolve_left hu)
    have b1 := lt_of _ _ _ _ h1 a1 hcx
    have b2 := lt_of _ _ _ _ h3 a2 hcx
    have : axisOfNormal (⟨|c.x|, |c.y|, |c.z|⟩ : V3 K) = .yz := if_pos ⟨b1, b2⟩
    rw [this] at he
    simp only [proj, Prod.mk.injEq] at he
    have hx : N.x * (p.x - q.x) = 0 := by rw [he.1, he.2] at hp; linear_combination hp - hq
    have := (mul_eq_zero.1 hx).resolve_left hu
    cases p; cases q
    simp only [V3.mk.injEq] at *
    exact ⟨sub_eq_zero.1 this, he.1, he.2⟩
  · have hu := nz _ _ a1
    have hcy : c.y ≠ 0 := by
      intro h0
      rw [h0, mul_zero] at h1 h2
      rcases hc with h | h | h
      · exact h ((mul_eq_zero.1 h1.symm).resolve_left hu)
      · exact h h0
      · exact h ((mul_eq_zero.1 h2).resolve_left hu)
    have b1 := lt_of _ _ _ _ h1.symm a1 hcy
    have b2 := lt_of _ _ _ _ h2 a2 hcy
    have : axisOfNormal (⟨|c.x|, |c.y|, |c.z|⟩ : V3 K) = .xz := by
      unfold axisOfNormal
      rw [if_neg (fun h => absurd h.1 (not_lt.2 b1.le)), if_pos ⟨b1, b2⟩]
    rw [this] at he
    simp only [proj, Prod.mk.injEq] at he
    have hx : N.y * (p.y - q.y) = 0 := by rw [he.1, he.2] at hp; linear_combination hp - hq
    have := (mul_eq_zero.1 hx).resolve_left hu
    cases p; cases q
    simp only [V3.mk.injEq] at *
    exact ⟨he.1, sub_eq_zero.1 this, he.2⟩
  · have hu := nz _ _ a1
    have hcz : c.z ≠ 0 := by
      intro h0
      rw [h0, mul_zero] at h2 h3
      rcases hc with h | h | h
      · exact h ((mul_eq_zero.1 h3.symm).resolve_left hu)
      · exact h ((mul_eq_zero.1 h2.symm).resolve_left hu)
      · exact h h0
    have b1 := lt_of _ _ _ _ h3.symm a1 hcz
    have b2 := lt_of _ _ _ _ h2.symm a2 hcz
    have : axisOfNormal (⟨|c.x|, |c.y|, |c.z|⟩ : V3 K) = .xy := by
      unfold axisOfNormal
      rw [if_neg (fun h => absurd h.2 (not_lt.2 b1.le)), if_neg (fun h => absurd h.2 (not_lt.2 b2.le))]
    rw [this] at he
    simp only [proj, Prod.mk.injEq] at he
    have hx : N.z * (p.z - q.z) = 0 := by rw [he.1, he.2] at hp; linear_combination hp - hq
    have := (mul_eq_zero.1 hx).resolve_left hu
    cases p; cases q
    simp only [V3.mk.injEq] at *
    exact ⟨he.1, he.2, sub_eq_zero.1 this⟩

/-- The projection of a plane polygon keeps its points apart, in `PointsGeneralPolygons`. Missing: planes whose normals have
no single greatest component (`C64_axis_violated`), and polygons that are so small that no corner has a vector of a
millionth. -/
theorem C64_axis_partial [IsStrictOrderedRing K] (P : Nat → V3 K) (l : List Nat) (N : V3 K) (d : K) (hN : OneGreatest N)
    (hpl : ∀ v ∈ l, N.x * (P v).x + N.y * (P v).y + N.z * (P v).z = d)
    (hc : ∃ pre i j k post, l = pre ++ i :: j :: k :: post ∧
      (1 / 1000000 ≤ |(turnVec (P i) (P j) (P k)).x| ∨ 1 / 1000000 ≤ |(turnVec (P i) (P j) (P k)).y| ∨
        1 / 1000000 ≤ |(turnVec (P i) (P j) (P k)).z|))
    (p q : V3 K) (hp : N.x * p.x + N.y * p.y + N.z * p.z = d) (hq : N.x * q.x + N.y * q.y + N.z * q.z = d)
    (he : proj (calcAxis P l) p = proj (calcAxis P l) q) : p = q := by
  have hab : ∀ a b c : V3 K, absNormal a b c = ⟨|(turnVec a b c).x|, |(turnVec a b c).y|, |(turnVec a b c).z|⟩ := by
    intro a b c; rfl
  have hmc : ∀ n : V3 K, 1 / 1000000 ≤ n.x ∨ 1 / 1000000 ≤ n.y ∨ 1 / 1000000 ≤ n.z ↔ 1 / 1000000 ≤ maxComp n := by
    intro n; simp only [maxComp, le_max_iff, or_assoc]
  obtain ⟨pre, i, j, k, post, hl, hbig⟩ := hc
  rcases searchNormal_found (l.map P) ⟨1, 0, 0⟩ 0 (by intro h; exact absurd h (not_le.2 (by positivity))) (Or.inr
    ⟨pre.map P, P i, P j, P k, post.map P, by rw [hl]; simp, by
      rw [← hmc, hab]; exact hbig⟩) with ⟨_, h⟩ | ⟨pre', a, b, c, post', hl', hs, hle⟩
  · exact absurd h (not_le.2 (by positivity))
  · have hmem : ∀ x ∈ l.map P, N.x * x.x + N.y * x.y + N.z * x.z = d := by
      intro x hx
      obtain ⟨v, hv, rfl⟩ := List.mem_map.1 hx
      exact hpl v hv
    have ha := hmem a (by rw [hl']; simp)
    have hb := hmem b (by rw [hl']; simp)
    have hc := hmem c (by rw [hl']; simp)
    have hax : calcAxis P l = axisOfNormal ⟨|(turnVec a b c).x|, |(turnVec a b c).y|, |(turnVec a b c).z|⟩ := by
      unfold calcAxis; rw [hs, hab]
    rw [hax] at he
    have hnz : (turnVec a b c).x ≠ 0 ∨ (turnVec a b c).y ≠ 0 ∨ (turnVec a b c).z ≠ 0 := by
      by_contra hcon
      push Not at hcon
      rw [← hmc, hab] at hle
      simp only [hcon.1, hcon.2.1, hcon.2.2, abs_zero] at hle
      have : (0 : K) < 1 / 1000000 := by positivity
      rcases hle with h | h | h <;> exact absurd h (not_le.2 this)
    refine axis_inj N (turnVec a b c) d hN ?_ ?_ ?_ hnz p q hp hq he
    · unfold turnVec; dsimp only; linear_combination (b.z - a.z) * (hc - hb) - (c.z - b.z) * (hb - ha)
    · unfold turnVec; dsimp only; linear_combination (b.x - a.x) * (hc - hb) - (c.x - b.x) * (hb - ha)
    · unfold turnVec; dsimp only; linear_combination (c.y - b.y) * (hb - ha) - (b.y - a.y) * (hc - hb)

/-- `e` is the distance from the least to the greatest value of the list. -/
def IsExtent (l : List K) (e : K) : Prop := ∃ a ∈ l, ∃ b ∈ l, (∀ v ∈ l, a ≤ v ∧ v ≤ b) ∧ e = b - a

omit [Field K] in
theorem foldl_greatest (l : List K) (m : K) :
    (l.foldl (fun m v => if v < m then m else v) m = m ∨ l.foldl (fun m v => if v < m then m else v) m ∈ l) ∧
    m ≤ l.foldl (fun m v => if v < m then m else v) m ∧ ∀ v ∈ l, v ≤ l.foldl (fun m v => if v < m then m else v) m := by
  induction l generalizing m with
  | nil => simp
  | cons a l ih =>
    rw [List.foldl_cons]
    by_cases h : a < m
    · rw [if_pos h]
      obtain ⟨h1, h2, h3⟩ := ih m
      refine ⟨h1.imp_right (List.mem_cons_of_mem _), h2, ?_⟩
      intro v hv
      rcases List.mem_cons.1 hv with rfl | hv
      · exact h.le.trans h2
      · exact h3 v hv
    · rw [if_neg h]
      obtain ⟨h1, h2, h3⟩ := ih a
      refine ⟨Or.inr (h1.elim (fun e => by rw [e]; exact List.mem_cons_self) (List.mem_cons_of_mem _)),
        (not_lt.1 h).trans h2, ?_⟩
      intro v hv
      rcases List.mem_cons.1 hv with rfl | hv
      · exact h2
      · exact h3 v hv

omit [Field K] in
theorem foldl_least (l : List K) (m : K) :
    (l.foldl (fun m v => if m < v then m else v) m = m ∨ l.foldl (fun m v => if m < v then m else v) m ∈ l) ∧
    l.foldl (fun m v => if m < v then m else v) m ≤ m ∧ ∀ v ∈ l, l.foldl (fun m v => if m < v then m else v) m ≤ v := by
  induction l generalizing m with
  | nil => simp
  | cons a l ih =>
    rw [List.foldl_cons]
    by_cases h : m < a
    · rw [if_pos h]
      obtain ⟨h1, h2, h3⟩ := ih m
      refine ⟨h1.imp_right (List.mem_cons_of_mem _), h2, ?_⟩
      intro v hv
      rcases List.mem_cons.1 hv with rfl | hv
      · exact h2.trans h.le
      · exact h3 v hv
    · rw [if_neg h]
      obtain ⟨h1, h2, h3⟩ := ih a
      refine ⟨Or.inr (h1.elim (fun e => by rw [e]; exact List.mem_cons_self) (List.mem_cons_of_mem _)),
        h2.trans (not_lt.1 h), ?_⟩
      intro v hv
      rcases List.mem_cons.1 hv with rfl | hv
      · exact h2
      · exact h3 v hv

theorem extent_unique [IsStrictOrderedRing K] (l : List K) (e : K) (h : IsExtent l e) : extent l = e := by
  obtain ⟨a, ha, b, hb, hab, rfl⟩ := h
  cases l with
  | nil => cases ha
  | cons c l =>
    unfold extent
    simp only [List.tail_cons, List.headD_cons]
    obtain ⟨g1, g2, g3⟩ := foldl_greatest l c
    obtain ⟨s1, s2, s3⟩ := foldl_least l c
    have gm : l.foldl (fun m v => if v < m then m else v) c ∈ c :: l :=
      g1.elim (fun e => by rw [e]; exact List.mem_cons_self) (List.mem_cons_of_mem _)
    have sm : l.foldl (fun m v => if m < v then m else v) c ∈ c :: l :=
      s1.elim (fun e => by rw [e]; exact List.mem_cons_self) (List.mem_cons_of_mem _)
    have e1 := le_antisymm (hab _ gm).2 ((List.mem_cons.1 hb).elim (fun e => by rw [e]; exact g2) (g3 b))
    have e2 := le_antisymm ((List.mem_cons.1 ha).elim (fun e => by rw [e]; exact s2) (s3 a)) (hab _ sm).1
    rw [e1, e2]

/-- In `GeneralPolygon` the coordinate that is left out is the one in which the polygon is narrowest, `z` if there are
several. -/
theorem C64_box_axis [IsStrictOrderedRing K] (l : List (V3 K)) (ex ey ez : K) (hx : IsExtent (l.map (·.x)) ex)
    (hy : IsExtent (l.map (·.y)) ey) (hz : IsExtent (l.map (·.z)) ez) :
    (boxAxis l = .yz ↔ ex < ey ∧ ex < ez) ∧ (boxAxis l = .xz ↔ ey < ex ∧ ey < ez) ∧
    (boxAxis l = .xy ↔ ¬ (ex < ey ∧ ex < ez) ∧ ¬ (ey < ex ∧ ey < ez)) := by
  unfold boxAxis
  dsimp only
  rw [extent_unique _ _ hx, extent_unique _ _ hy, extent_unique _ _ hz]
  by_cases h1 : ex < ey ∧ ex < ez
  · rw [if_pos h1]
    have : ¬ (ey < ex ∧ ey < ez) := fun h => lt_asymm h.1 h1.1
    simp [h1, this, h1.1.le]
  · rw [if_neg h1]
    by_cases h2 : ey < ex ∧ ey < ez
    · rw [if_pos h2]
      simp [h2, h2.1.le]
    · rw [if_neg h2]
      simp only [h1, h2, reduceCtorEq, not_false_eq_true, and_self]

example : boxAxis [(⟨1, 0, 0⟩ : V3 ℚ), ⟨1, 2, 0⟩, ⟨1, 2, 3⟩] = .yz ∧
    IsExtent ([(⟨1, 0, 0⟩ : V3 ℚ), ⟨1, 2, 0⟩, ⟨1, 2, 3⟩].map (·.y)) 2 := by
  refine ⟨by decide +kernel, 0, by simp, 2, by simp, ?_, by norm_num⟩
  simp

/-- A square in the direction of the clock. -/
def squarePts : Nat → V3 ℚ
  | 0 => ⟨0, 0, 0⟩
  | 1 => ⟨0, 1, 0⟩
  | 2 => ⟨1, 1, 0⟩
  | _ => ⟨1, 0, 0⟩

/-- `GeneralPolygon` exchanges the attribute `Orientation` of the current attributes, which all following primitives use,
although the triangles have the direction of the loop as it was given. -/
theorem C64_attribute_violated (tie : Nat × Nat → Nat × Nat → Bool) :
    orientationAfter squarePts .xy true [0, 1, 2, 3] = some false ∧
    orientationAfter squarePts .xy false [3, 2, 1, 0] = some true ∧
    ∃ ts, generalTris tie squarePts (fun _ => .xy) true [[0, 1, 2, 3]] = some ts ∧ ts ≠ [] ∧
      ∀ t ∈ ts, area2 (tri squarePts .xy t) < 0 := by
  refine ⟨by decide +kernel, by decide +kernel, [(2, 3, 0), (0, 1, 2)], ?_, by decide, by decide +kernel⟩
  have e : generalTris tie squarePts (fun _ => .xy) true [[0, 1, 2, 3]] =
      generalTris (fun _ _ => false) squarePts (fun _ => .xy) true [[0, 1, 2, 3]] := rfl
  rw [e]
  decide +kernel

/-- `Contains` takes the number of vertices of the other polygon for its own: a triangle inside of a square is not found,
and with more vertices the reads go outside. -/
theorem C64_contains_violated :
    contains ([(0, 0), (4, 0), (4, 4), (0, 4)] : List (ℚ × ℚ)) [(1, 1), (2, 1), (1, 2)] = some false ∧
    contains ([(0, 0), (4, 0), (0, 4)] : List (ℚ × ℚ)) [(1, 1), (3 / 2, 1), (3 / 2, 3 / 2), (1, 3 / 2)] = none := by
  decide +kernel

/-! ## Values of triangles -/

/-- Every corner of a triangle has the face varying value of its place in the loops of its polygon, and every triangle has
the uniform value of its polygon. Missing: polygons that name a vertex twice (`C64_facevarying_violated`). -/
theorem C64_facevarying_partial (tie : Nat × Nat → Nat × Nat → Bool) (P : Nat → V3 K) (o : Bool)
    (polys : List (List (List Nat))) (h0 : ∀ poly ∈ polys, poly ≠ [] ∧ ∀ l ∈ poly, l ≠ [])
    (hnd : ∀ poly ∈ polys, poly.flatten.Nodup) :
    ∃ (ts : List (List Nat) → List (Nat × Nat × Nat)) (r : Tris),
      (∀ poly ∈ polys, generalTris tie P (calcAxis P) o poly = some (ts poly)) ∧
      pointsGeneralPolygons tie P o polys = some r ∧ r.tris = polys.flatMap ts ∧
      (∀ {α : Type} (vals : List α), fvValues r.fv vals = cornerValues ts polys vals) ∧
      ∀ {α : Type} (vals : List α), vals.length = polys.length →
        r.tris.zip (uniformValues r.uv vals) = (polys.zip vals).flatMap fun pv => (ts pv.1).map fun t => (t, pv.2) := by
  have hts : ∀ poly ∈ polys, generalTris tie P (calcAxis P) o poly
      = some ((generalTris tie P (calcAxis P) o poly).getD []) := by
    intro poly hp
    obtain ⟨ts, e, _⟩ := generalTris_mem (tie := tie) (P := P) (ax := calcAxis P) (o := o) (h0 poly hp).1 (h0 poly hp).2
    rw [e]; rfl
  have hmem : ∀ poly ∈ polys, ∀ v ∈ flat ((generalTris tie P (calcAxis P) o poly).getD []), v ∈ poly.flatten := by
    intro poly hp v hv
    obtain ⟨ts, e, hm⟩ := generalTris_mem (tie := tie) (P := P) (ax := calcAxis P) (o := o) (h0 poly hp).1 (h0 poly hp).2
    rw [e] at hv
    obtain ⟨t, ht, hv⟩ := List.mem_flatMap.1 hv
    have := hm t ht
    simp only [List.mem_cons, List.not_mem_nil, or_false] at hv
    rcases hv with rfl | rfl | rfl
    exacts [this.1, this.2.1, this.2.2]
  have hl := pgpLoop_eq tie P o (fun poly => (generalTris tie P (calcAxis P) o poly).getD []) polys hts hmem hnd []
    ⟨[], [], []⟩
  simp only [List.nil_append, List.length_nil] at hl
  refine ⟨fun poly => (generalTris tie P (calcAxis P) o poly).getD [],
    ⟨polys.flatMap fun poly => (generalTris tie P (calcAxis P) o poly).getD [],
      cornerPlaces (fun poly => (generalTris tie P (calcAxis P) o poly).getD []) 0 polys,
      polys.map fun poly => ((generalTris tie P (calcAxis P) o poly).getD []).length⟩, hts, ?_, rfl, ?_, ?_⟩
  · unfold pointsGeneralPolygons
    rw [hl, Option.bind_some, if_pos (cornerPlaces_length _ _ _)]
  · intro α vals
    exact fvValues_places _ polys 0 vals
  · intro α vals hv
    exact uniform_zip _ polys vals hv

/-- A polygon that comes back to a vertex makes the assertion fail. -/
theorem C64_facevarying_violated (tie : Nat × Nat → Nat × Nat → Bool) :
    (∀ l ∈ [[0, 3, 2, 1, 2]], l ≠ []) ∧
    (generalTris tie squarePts (calcAxis squarePts) true [[0, 3, 2, 1, 2]]).isSome ∧
    pointsGeneralPolygons tie squarePts true [[[0, 3, 2, 1, 2]]] = none := by
  have e : pointsGeneralPolygons tie squarePts true [[[0, 3, 2, 1, 2]]] =
      pointsGeneralPolygons (fun _ _ => false) squarePts true [[[0, 3, 2, 1, 2]]] := rfl
  refine ⟨by decide, ?_, ?_⟩
  · show (generalTris (fun _ _ => false) squarePts (calcAxis squarePts) true [[0, 3, 2, 1, 2]]).isSome = true
    decide +kernel
  · rw [e]; decide +kernel

/-! ## Examples -/

/-- A square with a hole. -/
def framePts : Nat → V3 ℚ
  | 0 => ⟨0, 0, 0⟩
  | 1 => ⟨9, 0, 0⟩
  | 2 => ⟨9, 9, 0⟩
  | 3 => ⟨0, 9, 0⟩
  | 4 => ⟨4, 3, 0⟩
  | 5 => ⟨6, 4, 0⟩
  | _ => ⟨5, 6, 0⟩

/-- The conditions of `C64_area`, `C64_winding`, `C64_direction` and `C64_cover_partial` hold for a square with a hole: the
first point is in one triangle, the second one is in the hole. -/
example : ∃ ts, generalTris (fun _ _ => false) framePts (fun _ => .xy) true [[0, 1, 2, 3], [4, 5, 6]] = some ts ∧
    Complete [0, 1, 2, 3] [[4, 5, 6]] ts ∧ between framePts .xy [0, 1, 2, 3] [[4, 5, 6]] = 157 ∧
    (∀ t ∈ ts, 0 < area2 (tri framePts .xy t)) ∧
    (∀ t ∈ ts, offLines ((1, 5 / 7) : ℚ × ℚ) (tri framePts .xy t)) ∧
    (ts.countP (fun t => decide (inTri ((1, 5 / 7) : ℚ × ℚ) (tri framePts .xy t)))) = 1 ∧
    (∀ t ∈ ts, offLines ((5, 13 / 3) : ℚ × ℚ) (tri framePts .xy t)) ∧
    (ts.countP (fun t => decide (inTri ((5, 13 / 3) : ℚ × ℚ) (tri framePts .xy t)))) = 0 := by
  refine ⟨(generalTris (fun _ _ => false) framePts (fun _ => .xy) true [[0, 1, 2, 3], [4, 5, 6]]).getD [], ?_⟩
  unfold Complete offLines
  decide +kernel

/-- The loops around these two points. -/
example : winding ((1, 5 / 7) : ℚ × ℚ) (points framePts .xy [0, 1, 2, 3]) = 1 ∧
    winding ((1, 5 / 7) : ℚ × ℚ) (against (points framePts .xy [0, 1, 2, 3]) (points framePts .xy [4, 5, 6])) = 0 ∧
    winding ((5, 13 / 3) : ℚ × ℚ) (against (points framePts .xy [0, 1, 2, 3]) (points framePts .xy [4, 5, 6])) = -1 := by
  decide +kernel

/-- `Turns` for given points. -/
theorem turns_of_all (d : Orient) (l : List (K × K))
    (h : (l.sublists.all fun q => match q with
      | [x, y, z] => orientOf (det x y z) == d
      | _ => true) = true) : Turns d l := by
  intro a b c habc
  have := List.all_eq_true.1 h _ (List.mem_sublists.2 habc)
  simpa using this

/-- A convex polygon for `C64_convex`, in both directions. -/
example : Turns .acw (points framePts .xy [0, 1, 2, 3]) ∧ Turns .cw (points framePts .xy [3, 2, 1, 0]) :=
  ⟨turns_of_all _ _ (by decide +kernel), turns_of_all _ _ (by decide +kernel)⟩

/-- The conditions of `C64_axis_partial`. -/
example : OneGreatest (⟨0, 0, 1⟩ : V3 ℚ) ∧ calcAxis framePts [0, 1, 2, 3] = .xy := by
  refine ⟨Or.inr (Or.inr (by norm_num)), by decide +kernel⟩

/-- The conditions of `C64_facevarying_partial`, and what it says for the square with a hole and one more triangle. -/
example : (pointsGeneralPolygons (fun _ _ => false) framePts true [[[0, 1, 2, 3], [4, 5, 6]], [[4, 5, 6]]]).map
    (fun r => (r.tris.length, r.uv, r.fv.drop 21)) = some (8, [7, 1], [7, 8, 9]) := by
  decide +kernel

end Verif.Geom.GenPoly
