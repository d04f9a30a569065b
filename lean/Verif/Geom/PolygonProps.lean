import Verif.Geom.Polygon
import Verif.Geom.BilinearLemmas
import Verif.Geom.GenPolyProps

/-!
# C65: polygons are split into patches and triangles that cover them
-/

namespace Verif.Geom.Polygon

open Verif.Geom.Bilinear (Quad phantomQuad)
open Verif.Geom.GenPoly (V3 loopSum pathSum triSum cross area2 winding ray offLines inTri Turns det)

/-! ## Pieces -/

/-- The triangles that a piece stands for. -/
def Piece.tris (p : Piece) : List (Nat × Nat × Nat) := if p.isTri then [(p.a, p.b, p.c)] else [(p.a, p.b, p.c), (p.a, p.c, p.d)]

/-- The fan of a polygon with `n` vertices. -/
def fan (n : Nat) : List (Nat × Nat × Nat) := (List.range (n - 2)).map fun i => (0, i + 1, i + 2)

theorem splitLoop_tris (n f i : Nat) (hi : 1 ≤ i) (hf : n ≤ f + i) :
    (splitLoop n f (i + 1) i).flatMap Piece.tris = (List.range' i (n - 1 - i)).map fun k => (0, k, k + 1) := by
  induction f using Nat.strong_induction_on generalizing i with
  | _ f ih =>
    match f, ih with
    | 0, _ =>
      have : n - 1 - i = 0 := by omega
      simp [splitLoop, this]
    | f + 1, ih =>
      unfold splitLoop
      by_cases h1 : i + 1 < n
      · rw [if_pos h1]
        by_cases h2 : n > i + 1 + 1
        · simp only [if_pos h2, List.flatMap_cons]
          have := ih f (by omega) (i + 2) (by omega) (by omega)
          rw [this]
          have e : n - 1 - i = (n - 1 - (i + 2)) + 2 := by omega
          rw [e, List.range'_succ, List.range'_succ]
          simp [Piece.tris, Piece.isTri]
        · simp only [if_neg h2, List.flatMap_cons]
          have hn : n = i + 2 := by omega
          have hrest : splitLoop n f (i + 1 + 2) (i + 1) = [] := by
            cases f with
            | zero => rfl
            | succ f => unfold splitLoop; rw [if_neg (by omega)]
          rw [hrest]
          have e : n - 1 - i = 1 := by omega
          rw [e]
          simp [Piece.tris, Piece.isTri]
      · rw [if_neg h1]
        have : n - 1 - i = 0 := by omega
        simp [this]

/-- The pieces are made of the triangles of the fan, each one once and in their order. -/
theorem C65_fan (n : Nat) : (splitPoly n).flatMap Piece.tris = fan n := by
  unfold splitPoly fan
  rw [splitLoop_tris n n 1 (by omega) (by omega)]
  have : n - 1 - 1 = n - 2 := by omega
  rw [this, List.range'_eq_map_range, List.map_map]
  apply List.map_congr_left
  intro i _
  simp only [Function.comp_apply, Prod.mk.injEq, true_and]
  omega

example : splitPoly 6 = [⟨0, 1, 2, 3⟩, ⟨0, 3, 4, 5⟩] ∧ splitPoly 5 = [⟨0, 1, 2, 3⟩, ⟨0, 3, 4, 4⟩] ∧ splitPoly 3 = [⟨0, 1, 2, 2⟩] := by
  decide

theorem splitLoop_length (n f i b : Nat) (hf : n ≤ f + i) : (splitLoop n f i b).length = (n - i + 1) / 2 := by
  induction f using Nat.strong_induction_on generalizing i b with
  | _ f ih =>
    match f, ih with
    | 0, _ => simp only [splitLoop, List.length_nil]; omega
    | f + 1, ih =>
      unfold splitLoop
      by_cases h1 : i < n
      · rw [if_pos h1, List.length_cons, ih f (by omega) (i + 2) _ (by omega)]; omega
      · rw [if_neg h1, List.length_nil]; omega

theorem splitLoop_get (n f i b k : Nat) (hb : b + 1 = i) (p : Piece) (h : (splitLoop n f i b)[k]? = some p) :
    p.a = 0 ∧ p.b = i - 1 + 2 * k ∧ p.c = i + 2 * k ∧ p.c < n ∧ p.d = min (i + 2 * k + 1) (n - 1) := by
  induction f generalizing i b k with
  | zero => simp [splitLoop] at h
  | succ f ih =>
    unfold splitLoop at h
    by_cases h1 : i < n
    · rw [if_pos h1] at h
      cases k with
      | zero =>
        simp only [List.getElem?_cons_zero, Option.some.injEq] at h
        subst h
        dsimp only
        refine ⟨rfl, by omega, by omega, h1, ?_⟩
        split_ifs <;> omega
      | succ k =>
        rw [List.getElem?_cons_succ] at h
        by_cases h2 : n > i + 1
        · rw [if_pos h2] at h
          have := ih (i + 2) (i + 1) k (by omega) h
          refine ⟨this.1, by omega, by omega, this.2.2.2.1, by omega⟩
        · exfalso
          have : splitLoop n f (i + 2) (if n > i + 1 then i + 1 else i) = [] := by
            cases f with
            | zero => rfl
            | succ f => unfold splitLoop; rw [if_neg (by omega)]
          rw [this] at h
          simp at h
    · rw [if_neg h1] at h; simp at h

/-- The corners of each piece: the first vertex and three (or two, for a triangle at the end) consecutive ones. Only the last
piece is a triangle, and only if the number of vertices is odd. -/
theorem C65_pieces (n : Nat) :
    (splitPoly n).length = (n - 1) / 2 ∧
    ∀ k p, (splitPoly n)[k]? = some p →
      p.a = 0 ∧ p.b = 2 * k + 1 ∧ p.c = 2 * k + 2 ∧ p.d = min (2 * k + 3) (n - 1) ∧ p.c < n ∧ p.d < n ∧
      (p.isTri = true ↔ k + 1 = (splitPoly n).length ∧ n % 2 = 1) := by
  have hlen : (splitPoly n).length = (n - 1) / 2 := by
    unfold splitPoly
    rw [splitLoop_length n n 2 1 (by omega)]; omega
  refine ⟨hlen, ?_⟩
  intro k p h
  have hk : k < (n - 1) / 2 := by
    rw [← hlen]
    exact (List.getElem?_eq_some_iff.1 h).1
  obtain ⟨h1, h2, h3, h4, h5⟩ := splitLoop_get n n 2 1 k rfl p h
  refine ⟨h1, by omega, by omega, by omega, h4, by omega, ?_⟩
  rw [hlen]
  simp only [Piece.isTri, beq_iff_eq]
  omega

section

variable {K : Type} [Field K] [LinearOrder K]

theorem fan_sum {G : Type} [AddCommGroup G] {α : Type} (w : α → α → G) (hw : ∀ a b, w b a = - w a b) (pt : Nat → α) (m : Nat) :
    ((List.range m).map fun i => triSum w (pt 0, pt (i + 1), pt (i + 2))).sum
      = pathSum w ((List.range (m + 2)).map pt) + w (pt (m + 1)) (pt 0) := by
  induction m with
  | zero =>
    have : (List.range 2).map pt = [pt 0, pt 1] := rfl
    simp only [List.range_zero, List.map_nil, List.sum_nil, Nat.zero_add, this, pathSum]
    rw [hw (pt 0) (pt 1)]; abel
  | succ m ih =>
    rw [List.range_succ, List.map_append, List.sum_append, ih, List.range_succ (n := m + 2), List.map_append,
      List.range_succ (n := m + 1)]
    simp only [List.map_append, List.map_cons, List.map_nil, List.sum_cons, List.sum_nil, List.append_assoc,
      List.cons_append, List.nil_append, triSum]
    rw [GenPoly.pathSum_pair, hw (pt 0) (pt (m + 1))]
    abel

theorem fan_loop {G : Type} [AddCommGroup G] {α : Type} (w : α → α → G) (hw : ∀ a b, w b a = - w a b) (pt : Nat → α) (n : Nat)
    (hn : 2 ≤ n) :
    ((fan n).map fun t => triSum w (pt t.1, pt t.2.1, pt t.2.2)).sum = loopSum w ((List.range n).map pt) := by
  obtain ⟨m, rfl⟩ : ∃ m, n = m + 2 := ⟨n - 2, by omega⟩
  unfold fan
  rw [Nat.add_sub_cancel, List.map_map]
  have := fan_sum w hw pt m
  have e : ((fun t : Nat × Nat × Nat => triSum w (pt t.1, pt t.2.1, pt t.2.2)) ∘ fun i => (0, i + 1, i + 2))
      = fun i => triSum w (pt 0, pt (i + 1), pt (i + 2)) := rfl
  rw [e, this]
  have h0 : (List.range (m + 2)).map pt = pt 0 :: (List.range (m + 1)).map (fun i => pt (i + 1)) := by
    rw [List.range_succ_eq_map]; simp [Function.comp_def]
  have hl : loopSum w ((List.range (m + 2)).map pt) = pathSum w ((List.range (m + 2)).map pt ++ [pt 0]) := by
    rw [h0]; rfl
  rw [hl, List.range_succ, List.map_append, List.append_assoc]
  show _ = pathSum w ((List.range (m + 1)).map pt ++ [pt (m + 1), pt 0])
  rw [GenPoly.pathSum_pair]; rfl

/-- The areas of the pieces, as triangles, add up to that of the polygon, and they contain every point as often as the
polygon goes around it. -/
theorem C65_cover (pt : Nat → K × K) (n : Nat) (hn : 3 ≤ n) (p : K × K) :
    (((splitPoly n).flatMap Piece.tris).map fun t => area2 (pt t.1, pt t.2.1, pt t.2.2)).sum
      = loopSum cross ((List.range n).map pt) ∧
    (((splitPoly n).flatMap Piece.tris).map fun t => winding p [pt t.1, pt t.2.1, pt t.2.2]).sum
      = winding p ((List.range n).map pt) := by
  rw [C65_fan]
  constructor
  · have := fan_loop cross GenPoly.cross_anti pt n (by omega)
    simp only [GenPoly.triSum_cross] at this
    exact this
  · have := fan_loop (ray p) (GenPoly.ray_anti p) pt n (by omega)
    unfold winding
    rw [← this]
    congr 1
    apply List.map_congr_left
    intro t _
    simp [loopSum, pathSum, triSum, add_assoc]

/-- The pieces of a convex polygon do not overlap: every point is in exactly one of the triangles if the polygon goes around
it, and in none if not. -/
theorem C65_convex [IsStrictOrderedRing K] (pt : Nat → K × K) (n : Nat) (hn : 3 ≤ n)
    (hT : Turns .acw ((List.range n).map pt)) (p : K × K)
    (hp : ∀ t ∈ (splitPoly n).flatMap Piece.tris, offLines p (pt t.1, pt t.2.1, pt t.2.2)) :
    (((splitPoly n).flatMap Piece.tris).countP (fun t => decide (inTri p (pt t.1, pt t.2.1, pt t.2.2))) : Int)
      = winding p ((List.range n).map pt) := by
  rw [← (C65_cover pt n hn p).2]
  have hdir : ∀ t ∈ (splitPoly n).flatMap Piece.tris, 0 < area2 (pt t.1, pt t.2.1, pt t.2.2) := by
    intro t ht
    rw [C65_fan] at ht
    obtain ⟨i, hi, rfl⟩ := List.mem_map.1 ht
    rw [List.mem_range] at hi
    apply GenPoly.orientOf_acw.1
    apply hT
    have : [pt 0, pt (i + 1), pt (i + 2)] = ([0, i + 1, i + 2] : List Nat).map pt := rfl
    dsimp only
    rw [this]
    apply List.Sublist.map
    have hs : ([0, i + 1, i + 2] : List Nat).Pairwise (· < ·) := by simp
    have : List.range n = [0] ++ (List.range' 1 i ++ ([i + 1] ++ ([i + 2] ++ List.range' (i + 3) (n - (i + 3))))) := by
      apply List.ext_getElem
      · simp; omega
      · intro k h1 h2
        simp only [List.getElem_range]
        rw [List.length_range] at h1
        rcases (by omega : k = 0 ∨ (1 ≤ k ∧ k ≤ i) ∨ k = i + 1 ∨ k = i + 2 ∨ i + 3 ≤ k) with h | h | h | h | h
        · subst h; rfl
        · rw [List.getElem_append_right (by simpa using h.1), List.getElem_append_left (by simp; omega)]
          simp; omega
        · subst h; simp [List.getElem_append_right]
        · subst h; simp [List.getElem_append_right]
        · rw [List.getElem_append_right (by simp; omega), List.getElem_append_right (by simp; omega),
            List.getElem_append_right (by simp; omega), List.getElem_append_right (by simp; omega)]
          simp; omega
    rw [this]
    apply List.Sublist.append (List.Sublist.refl [0])
    apply List.Sublist.trans _ (List.sublist_append_right _ _)
    apply List.Sublist.append (List.Sublist.refl [i + 1])
    exact List.sublist_append_left _ _
  generalize (splitPoly n).flatMap Piece.tris = ts at hp hdir
  induction ts with
  | nil => rfl
  | cons t ts ih =>
    have hi := ih (fun t' h' => hp t' (by simp [h'])) (fun t' h' => hdir t' (by simp [h']))
    rw [List.map_cons, List.sum_cons, ← hi]
    have := GenPoly.C64_triangle p _ (hp t (by simp))
    simp only at this
    rw [this, if_pos (hdir t (by simp))]
    by_cases hin : inTri p (pt t.1, pt t.2.1, pt t.2.2)
    · rw [List.countP_cons_of_pos (by simpa using hin), if_pos hin]; push_cast; ring
    · rw [List.countP_cons_of_neg (by simpa using hin), if_neg hin]; ring

omit [LinearOrder K] in
/-- Every piece has the values of its vertices at its corners, and pieces next to each other have the same values along
their common edge. A triangle is linear between its vertices. -/
theorem C65_values (val : Nat → K) (n k : Nat) (p : Piece) (hp : (splitPoly n)[k]? = some p) :
    (pieceQuad val p).at 0 0 = val 0 ∧ (pieceQuad val p).at 1 0 = val (2 * k + 1) ∧
    (p.isTri = false → (pieceQuad val p).at 1 1 = val (2 * k + 2) ∧ (pieceQuad val p).at 0 1 = val (2 * k + 3)) ∧
    (p.isTri = true → ∀ s t, (pieceQuad val p).at s t = (1 - s - t) * val 0 + s * val (2 * k + 1) + t * val (2 * k + 2)) ∧
    ∀ q, (splitPoly n)[k + 1]? = some q → ∀ t, (pieceQuad val p).at 0 t = (pieceQuad val q).at t 0 := by
  obtain ⟨h1, h2, h3, h4, _, _, h7⟩ := (C65_pieces n).2 k p hp
  have hk : k < (splitPoly n).length := (List.getElem?_eq_some_iff.1 hp).1
  have hlen := (C65_pieces n).1
  refine ⟨?_, ?_, ?_, ?_, ?_⟩
  · unfold pieceQuad
    split_ifs <;> simp [Quad.at, phantomQuad, h1]
  · unfold pieceQuad
    split_ifs <;> simp [Quad.at, phantomQuad, h2]
  · intro hf
    have hd : p.d = 2 * k + 3 := by
      have : ¬ (k + 1 = (splitPoly n).length ∧ n % 2 = 1) := fun h => by
        have := h7.2 h; rw [hf] at this; cases this
      omega
    unfold pieceQuad
    rw [if_neg (by rw [hf]; simp)]
    constructor <;> simp [Quad.at, h3, hd]
  · intro ht s t
    have hcd : p.c = p.d := by simpa [Piece.isTri] using ht
    unfold pieceQuad
    rw [if_pos ht, ← hcd, h1, h2, h3]
    simp only [Quad.at, phantomQuad]; ring
  · intro q hq t
    obtain ⟨q1, q2, _, _, _, _, _⟩ := (C65_pieces n).2 (k + 1) q hq
    have hk' : k + 1 < (splitPoly n).length := (List.getElem?_eq_some_iff.1 hq).1
    have hf : p.isTri = false := by
      cases hc : p.isTri with
      | false => rfl
      | true => have := (h7.1 hc).1; omega
    have hd : p.d = 2 * k + 3 := by
      have : ¬ (k + 1 = (splitPoly n).length ∧ n % 2 = 1) := fun h => by
        have := h7.2 h; rw [hf] at this; cases this
      omega
    have hl : (pieceQuad val p).at 0 t = (1 - t) * val 0 + t * val (2 * k + 3) := by
      unfold pieceQuad
      rw [if_neg (by rw [hf]; simp), h1, hd]
      simp only [Quad.at]; ring
    have hr : (pieceQuad val q).at t 0 = (1 - t) * val 0 + t * val (2 * k + 3) := by
      have e : 2 * (k + 1) + 1 = 2 * k + 3 := by ring
      unfold pieceQuad
      split_ifs <;> simp only [Quad.at, phantomQuad, q1, q2, e] <;> ring
    rw [hl, hr]

omit [LinearOrder K] in
/-- The parameters `u` and `v` are those of the patch, and `s` and `t` are coordinates of the point on the patch, for maps
of points that are affine. -/
theorem C65_params (T : V3 K → K) (tx ty tz tw : K) (hT : ∀ p, T p = tx * p.x + ty * p.y + tz * p.z + tw)
    (x y z : Quad K) (a b : K) :
    (uQuad : Quad K).at a b = a ∧ (vQuad : Quad K).at a b = b ∧
    (stQuad T x y z).at a b = T ⟨x.at a b, y.at a b, z.at a b⟩ := by
  refine ⟨by simp only [uQuad, Quad.at]; ring, by simp only [vQuad, Quad.at]; ring, ?_⟩
  simp only [stQuad, Quad.at, hT]; ring

/-- The bound contains all vertices and is not greater than they need. -/
theorem C65_bound (big : K) (vals : List K) (h0 : vals ≠ []) (hb : ∀ v ∈ vals, -big ≤ v ∧ v ≤ big) :
    (∀ v ∈ vals, (polyBound big vals).1 ≤ v ∧ v ≤ (polyBound big vals).2) ∧
    (polyBound big vals).1 ∈ vals ∧ (polyBound big vals).2 ∈ vals := by
  have key : ∀ (l : List K) (lo hi : K),
      ((l.foldl (fun r v => (if v < r.1 then v else r.1, if r.2 < v then v else r.2)) (lo, hi)).1 ≤ lo ∧
       hi ≤ (l.foldl (fun r v => (if v < r.1 then v else r.1, if r.2 < v then v else r.2)) (lo, hi)).2) ∧
      (∀ v ∈ l, (l.foldl (fun r v => (if v < r.1 then v else r.1, if r.2 < v then v else r.2)) (lo, hi)).1 ≤ v ∧
        v ≤ (l.foldl (fun r v => (if v < r.1 then v else r.1, if r.2 < v then v else r.2)) (lo, hi)).2) ∧
      ((l.foldl (fun r v => (if v < r.1 then v else r.1, if r.2 < v then v else r.2)) (lo, hi)).1 = lo ∨
        (l.foldl (fun r v => (if v < r.1 then v else r.1, if r.2 < v then v else r.2)) (lo, hi)).1 ∈ l) ∧
      ((l.foldl (fun r v => (if v < r.1 then v else r.1, if r.2 < v then v else r.2)) (lo, hi)).2 = hi ∨
        (l.foldl (fun r v => (if v < r.1 then v else r.1, if r.2 < v then v else r.2)) (lo, hi)).2 ∈ l) := by
    intro l
    induction l with
    | nil => intro lo hi; simp
    | cons a l ih =>
      intro lo hi
      rw [List.foldl_cons]
      obtain ⟨⟨k1, k2⟩, k3, k4, k5⟩ := ih (if a < lo then a else lo) (if hi < a then a else hi)
      have m1 : (if a < lo then a else lo) ≤ lo ∧ (if a < lo then a else lo) ≤ a := by
        split_ifs with h
        · exact ⟨h.le, le_refl a⟩
        · exact ⟨le_refl lo, not_lt.1 h⟩
      have m2 : hi ≤ (if hi < a then a else hi) ∧ a ≤ (if hi < a then a else hi) := by
        split_ifs with h
        · exact ⟨h.le, le_refl a⟩
        · exact ⟨le_refl hi, not_lt.1 h⟩
      refine ⟨⟨k1.trans m1.1, m2.1.trans k2⟩, ?_, ?_, ?_⟩
      · intro v hv
        rcases List.mem_cons.1 hv with rfl | hv
        · exact ⟨k1.trans m1.2, m2.2.trans k2⟩
        · exact k3 v hv
      · rcases k4 with h | h
        · by_cases hlt : a < lo
          · right; dsimp only; rw [h, if_pos hlt]; simp
          · left; dsimp only; rw [h, if_neg hlt]
        · exact Or.inr (List.mem_cons_of_mem _ h)
      · rcases k5 with h | h
        · by_cases hlt : hi < a
          · right; dsimp only; rw [h, if_pos hlt]; simp
          · left; dsimp only; rw [h, if_neg hlt]
        · exact Or.inr (List.mem_cons_of_mem _ h)
  obtain ⟨_, k3, k4, k5⟩ := key vals big (-big)
  have hex : ∃ v, v ∈ vals := List.exists_mem_of_ne_nil vals h0
  obtain ⟨v, hv⟩ := hex
  refine ⟨k3, ?_, ?_⟩
  · rcases k4 with h | h
    · have h1 := (k3 v hv).1
      have h2 := (hb v hv).2
      have : (polyBound big vals).1 = v := by
        unfold polyBound; rw [h] at h1 ⊢; exact le_antisymm h1 h2
      rw [this]; exact hv
    · exact h
  · rcases k5 with h | h
    · have h1 := (k3 v hv).2
      have h2 := (hb v hv).1
      have : (polyBound big vals).2 = v := by
        unfold polyBound; rw [h] at h1 ⊢; exact le_antisymm h2 h1
      rw [this]; exact hv
    · exact h

/-! ## The normal -/

/-- The inner product. -/
def dot (a b : V3 K) : K := a.x * b.x + a.y * b.y + a.z * b.z

omit [LinearOrder K] in
theorem triple_zero (m a b c : V3 K) (hm : m ≠ ⟨0, 0, 0⟩) (ha : dot m a = 0) (hb : dot m b = 0) (hc : dot m c = 0) :
    dot (vcross a b) c = 0 := by
  simp only [dot, vcross] at *
  have h1 : m.x * ((a.y * b.z - a.z * b.y) * c.x + (a.z * b.x - a.x * b.z) * c.y + (a.x * b.y - a.y * b.x) * c.z) = 0 := by
    linear_combination (b.y * c.z - b.z * c.y) * ha + (c.y * a.z - c.z * a.y) * hb + (a.y * b.z - a.z * b.y) * hc
  have h2 : m.y * ((a.y * b.z - a.z * b.y) * c.x + (a.z * b.x - a.x * b.z) * c.y + (a.x * b.y - a.y * b.x) * c.z) = 0 := by
    linear_combination (b.z * c.x - b.x * c.z) * ha + (c.z * a.x - c.x * a.z) * hb + (a.z * b.x - a.x * b.z) * hc
  have h3 : m.z * ((a.y * b.z - a.z * b.y) * c.x + (a.z * b.x - a.x * b.z) * c.y + (a.x * b.y - a.y * b.x) * c.z) = 0 := by
    linear_combination (b.x * c.y - b.y * c.x) * ha + (c.x * a.y - c.y * a.x) * hb + (a.x * b.y - a.y * b.x) * hc
  by_contra h0
  apply hm
  obtain ⟨x, y, z⟩ := m
  simp only at h1 h2 h3
  rw [(mul_eq_zero.1 h1).resolve_right h0, (mul_eq_zero.1 h2).resolve_right h0, (mul_eq_zero.1 h3).resolve_right h0]

theorem firstVec_mem (eps : K) (a v : V3 K) (ps : List (V3 K)) :
    ((firstVec eps a v ps).1 = v ∨ ∃ p ∈ ps, (firstVec eps a v ps).1 = sub p a) ∧ ∀ p ∈ (firstVec eps a v ps).2, p ∈ ps := by
  induction ps generalizing v with
  | nil => exact ⟨Or.inl rfl, fun p h => h⟩
  | cons q ps ih =>
    unfold firstVec
    by_cases h : eps * eps < mag2 (sub q a)
    · rw [if_pos h]
      exact ⟨Or.inr ⟨q, by simp, rfl⟩, fun p hp => List.mem_cons_of_mem _ hp⟩
    · rw [if_neg h]
      obtain ⟨h1, h2⟩ := ih (sub q a)
      refine ⟨?_, fun p hp => List.mem_cons_of_mem _ (h2 p hp)⟩
      rcases h1 with h1 | ⟨p, hp, h1⟩
      · exact Or.inr ⟨q, by simp, h1⟩
      · exact Or.inr ⟨p, by simp [hp], h1⟩

theorem secondVec_mem (eps : K) (a v0 v : V3 K) (ps : List (V3 K)) :
    secondVec eps a v0 v ps = v ∨ ∃ p ∈ ps, secondVec eps a v0 v ps = sub p a := by
  induction ps generalizing v with
  | nil => exact Or.inl rfl
  | cons q ps ih =>
    unfold secondVec
    by_cases h : eps * eps < mag2 (sub q a) ∧ sub q a ≠ v0
    · rw [if_pos h]
      exact Or.inr ⟨q, by simp, rfl⟩
    · rw [if_neg h]
      rcases ih (sub q a) with h1 | ⟨p, hp, h1⟩
      · exact Or.inr ⟨q, by simp, h1⟩
      · exact Or.inr ⟨p, by simp [hp], h1⟩

/-- The normal of a polygon in a plane is perpendicular to the plane; and if the second and the third vertex are far enough
from the first and not in line with it, it is not zero, and it points to the side from which the first three vertices turn
anticlockwise if the orientation is that of the space, and to the other side if not. Missing: vertices in line. -/
theorem C65_normal_partial (eps : K) (o cso : Bool) (a : V3 K) (ps : List (V3 K)) :
    (∀ m : V3 K, m ≠ ⟨0, 0, 0⟩ → (∀ p ∈ ps, dot m (sub p a) = 0) →
      ∀ p ∈ ps, dot (facetNormal eps o cso (a :: ps)) (sub p a) = 0) ∧
    (∀ b c rest, ps = b :: c :: rest → eps * eps < mag2 (sub b a) → eps * eps < mag2 (sub c a) →
      vcross (sub b a) (sub c a) ≠ ⟨0, 0, 0⟩ →
      facetNormal eps o cso (a :: ps) ≠ ⟨0, 0, 0⟩ ∧
      facetNormal eps o cso (a :: ps)
        = if o = cso then vcross (sub b a) (sub c a) else vcross (sub c a) (sub b a)) := by
  constructor
  · intro m hm hpl p hp
    have z0 : dot m (⟨0, 0, 0⟩ : V3 K) = 0 := by simp [dot]
    have hv0 : dot m (firstVec eps a ⟨0, 0, 0⟩ ps).1 = 0 := by
      rcases (firstVec_mem eps a ⟨0, 0, 0⟩ ps).1 with h | ⟨q, hq, h⟩
      · rw [h]; exact z0
      · rw [h]; exact hpl q hq
    have hv1 : dot m (secondVec eps a (firstVec eps a ⟨0, 0, 0⟩ ps).1 ⟨0, 0, 0⟩ (firstVec eps a ⟨0, 0, 0⟩ ps).2) = 0 := by
      rcases secondVec_mem eps a (firstVec eps a ⟨0, 0, 0⟩ ps).1 ⟨0, 0, 0⟩ (firstVec eps a ⟨0, 0, 0⟩ ps).2 with h | ⟨q, hq, h⟩
      · rw [h]; exact z0
      · rw [h]; exact hpl q ((firstVec_mem eps a ⟨0, 0, 0⟩ ps).2 q hq)
    have h := triple_zero m _ _ _ hm hv0 hv1 (hpl p hp)
    unfold facetNormal
    dsimp only
    split_ifs
    · exact h
    · simp only [dot] at h ⊢
      linear_combination -h
  · intro b c rest hps hb hc hx
    subst hps
    have hne : sub c a ≠ sub b a := by
      intro h
      apply hx
      rw [h]; simp only [vcross, V3.mk.injEq]
      refine ⟨by ring, by ring, by ring⟩
    have hn : facetNormal eps o cso (a :: b :: c :: rest)
        = if o = cso then vcross (sub b a) (sub c a) else vcross (sub c a) (sub b a) := by
      have e1 : firstVec eps a ⟨0, 0, 0⟩ (b :: c :: rest) = (sub b a, c :: rest) := by
        unfold firstVec; exact if_pos hb
      have e2 : secondVec eps a (sub b a) ⟨0, 0, 0⟩ (c :: rest) = sub c a := by
        unfold secondVec; exact if_pos ⟨hc, hne⟩
      unfold facetNormal
      dsimp only
      rw [e1]
      dsimp only
      rw [e2]
      have hs : (⟨-(vcross (sub b a) (sub c a)).x, -(vcross (sub b a) (sub c a)).y, -(vcross (sub b a) (sub c a)).z⟩ : V3 K)
          = vcross (sub c a) (sub b a) := by
        simp only [vcross, V3.mk.injEq]
        refine ⟨by ring, by ring, by ring⟩
      rw [hs]
      cases o <;> cases cso <;> rfl
    refine ⟨?_, hn⟩
    rw [hn]
    split_ifs
    · exact hx
    · intro h
      apply hx
      have h1 := congrArg V3.x h
      have h2 := congrArg V3.y h
      have h3 := congrArg V3.z h
      simp only [vcross] at h1 h2 h3 ⊢
      rw [V3.mk.injEq]
      refine ⟨by linear_combination -h1, by linear_combination -h2, by linear_combination -h3⟩

/-- A polygon whose first three vertices are in line (a rectangle with a vertex on an edge) has no normal, although it is
convex and has an area. -/
theorem C65_normal_violated (o cso : Bool) :
    facetNormal (1 / 8388608 : Rat) o cso [⟨0, 0, 0⟩, ⟨1, 0, 0⟩, ⟨2, 0, 0⟩, ⟨2, 2, 0⟩, ⟨0, 2, 0⟩] = ⟨0, 0, 0⟩ ∧
    loopSum cross [((0 : Rat), (0 : Rat)), (1, 0), (2, 0), (2, 2), (0, 2)] = 8 := by
  cases o <;> cases cso <;> decide +kernel

example : facetNormal (1 / 8388608 : Rat) true true [⟨0, 0, 0⟩, ⟨2, 0, 0⟩, ⟨2, 2, 0⟩, ⟨0, 2, 0⟩] = ⟨0, 0, 4⟩ ∧
    facetNormal (1 / 8388608 : Rat) true false [⟨0, 0, 0⟩, ⟨2, 0, 0⟩, ⟨2, 2, 0⟩, ⟨0, 2, 0⟩] = ⟨0, 0, -4⟩ := by
  decide +kernel

/-- A polygon is degenerate if no two vertices that follow each other are further from each other than the limit. -/
theorem C65_degenerate (eps : K) (l : List (V3 K)) :
    checkDegenerate eps l = true ↔ ∀ i p q, l[i]? = some p → l[i + 1]? = some q → mag2 (sub q p) ≤ eps * eps := by
  induction l with
  | nil => simp [checkDegenerate]
  | cons p l ih =>
    cases l with
    | nil => simp [checkDegenerate]
    | cons q l =>
      unfold checkDegenerate
      by_cases h : eps * eps < mag2 (sub q p)
      · rw [if_pos h]
        simp only [Bool.false_eq_true, false_iff]
        intro hall
        exact absurd (hall 0 p q rfl rfl) (not_le.2 h)
      · rw [if_neg h, ih]
        constructor
        · intro hall i p' q' h1 h2
          cases i with
          | zero =>
            simp only [List.getElem?_cons_zero, Option.some.injEq, Nat.zero_add, List.getElem?_cons_succ] at h1 h2
            subst h1; subst h2
            exact not_lt.1 h
          | succ i =>
            rw [List.getElem?_cons_succ] at h1 h2
            exact hall i p' q' h1 h2
        · intro hall i p' q' h1 h2
          exact hall (i + 1) p' q' (by rw [List.getElem?_cons_succ]; exact h1) (by rw [List.getElem?_cons_succ]; exact h2)

end

/-! ## Meshes -/

/-- The place of the first index of face `k`. -/
def startOf (counts : List Nat) (k : Nat) : Nat := (counts.take k).sum

/-- The indices of face `k`, as the arguments say. -/
def givenIndices (counts : List Nat) (idx : List Int) (k : Nat) : List Int :=
  (idx.drop (startOf counts k)).take (counts.getD k 0)

/-- An index is valid if there is such a point. -/
def valid (size : Nat) (i : Int) : Prop := 0 ≤ i ∧ i < size

instance (size : Nat) (i : Int) : Decidable (valid size i) := by unfold valid; infer_instance

/-- The face with its own values. -/
def givenFace (counts : List Nat) (idx : List Int) (k : Nat) : Face := ⟨k, startOf counts k, givenIndices counts idx k⟩

theorem takeFace_ok (size : Nat) (idx : List Int) (n iP : Nat) (acc : List Int) (hlen : iP + n ≤ idx.length)
    (hv : ∀ i ∈ (idx.drop iP).take n, valid size i) :
    takeFace size idx n iP acc = (some (acc.reverse ++ (idx.drop iP).take n), iP + n) := by
  induction n generalizing iP acc with
  | zero => simp [takeFace]
  | succ n ih =>
    have hlt : iP < idx.length := by omega
    rw [List.drop_eq_getElem_cons hlt, List.take_succ_cons] at hv ⊢
    have hg : idx.getD iP 0 = idx[iP] := by
      rw [List.getD_eq_getElem?_getD, List.getElem?_eq_getElem hlt]; rfl
    have h0 : valid size idx[iP] := hv _ (by simp)
    unfold takeFace
    rw [hg, if_pos (show 0 ≤ idx[iP] ∧ idx[iP] < (size : Int) from h0), ih (iP + 1) _ (by omega) (fun i hi => hv i (by simp [hi]))]
    simp only [List.reverse_cons, List.append_assoc, List.cons_append, List.nil_append, Prod.mk.injEq, true_and]
    omega

theorem takeFace_bad (size : Nat) (idx : List Int) (n iP : Nat) (acc : List Int) (hlen : iP + n ≤ idx.length)
    (hv : ∃ i ∈ (idx.drop iP).take n, ¬ valid size i) :
    ∃ j, takeFace size idx n iP acc = (none, j) ∧ iP ≤ j ∧ j < iP + n ∧ ¬ valid size (idx.getD j 0) := by
  induction n generalizing iP acc with
  | zero => simp at hv
  | succ n ih =>
    have hlt : iP < idx.length := by omega
    rw [List.drop_eq_getElem_cons hlt, List.take_succ_cons] at hv
    have hg : idx.getD iP 0 = idx[iP] := by
      rw [List.getD_eq_getElem?_getD, List.getElem?_eq_getElem hlt]; rfl
    unfold takeFace
    by_cases h0 : valid size (idx.getD iP 0)
    · rw [if_pos (show 0 ≤ idx.getD iP 0 ∧ idx.getD iP 0 < (size : Int) from h0)]
      obtain ⟨i, hi, hbad⟩ := hv
      rcases List.mem_cons.1 hi with rfl | hi
      · rw [hg] at h0; exact absurd h0 hbad
      · obtain ⟨j, h1, h2, h3, h4⟩ := ih (iP + 1) (idx.getD iP 0 :: acc) (by omega) ⟨i, hi, hbad⟩
        exact ⟨j, h1, by omega, by omega, h4⟩
    · rw [if_neg (show ¬ (0 ≤ idx.getD iP 0 ∧ idx.getD iP 0 < (size : Int)) from h0)]
      exact ⟨iP, rfl, le_refl _, by omega, h0⟩

/-- Faces of no vertices. -/
def emptyFaces (poly iP : Nat) : List Nat → List Face
  | [] => []
  | c :: cs => if c = 0 then ⟨poly, iP, []⟩ :: emptyFaces (poly + 1) iP cs else emptyFaces (poly + 1) iP cs

theorem meshLoop_stuck (size : Nat) (idx : List Int) (poly iP : Nat) (cs : List Nat) (h : ¬ valid size (idx.getD iP 0)) :
    meshLoop size idx poly iP cs = emptyFaces poly iP cs := by
  induction cs generalizing poly with
  | nil => rfl
  | cons c cs ih =>
    unfold meshLoop emptyFaces
    cases c with
    | zero => simp only [takeFace, if_true, List.reverse_nil, ih]
    | succ c =>
      have : takeFace size idx (c + 1) iP [] = (none, iP) := by
        unfold takeFace
        rw [if_neg (show ¬ (0 ≤ idx.getD iP 0 ∧ idx.getD iP 0 < (size : Int)) from h)]
      rw [this, if_neg (by omega)]
      exact ih (poly + 1)

theorem meshLoop_append (size : Nat) (counts : List Nat) (idx : List Int) (hlen : counts.sum ≤ idx.length) (k m : Nat)
    (hk : k + m ≤ counts.length)
    (hv : ∀ j, k ≤ j → j < k + m → ∀ i ∈ givenIndices counts idx j, valid size i) :
    meshLoop size idx k (startOf counts k) (counts.drop k)
      = (List.range' k m).map (givenFace counts idx) ++
        meshLoop size idx (k + m) (startOf counts (k + m)) (counts.drop (k + m)) := by
  induction m generalizing k with
  | zero => simp
  | succ m ih =>
    have hlt : k < counts.length := by omega
    have hs : startOf counts (k + 1) = startOf counts k + counts[k] := by
      unfold startOf
      rw [List.take_succ_eq_append_getElem hlt, List.sum_append]; simp
    have hle : startOf counts (k + 1) ≤ counts.sum := by
      unfold startOf
      conv_rhs => rw [← List.take_append_drop (k + 1) counts]
      rw [List.sum_append]; omega
    have hc : counts.getD k 0 = counts[k] := by
      rw [List.getD_eq_getElem?_getD, List.getElem?_eq_getElem hlt]; rfl
    have h1 := hv k (le_refl _) (by omega)
    unfold givenIndices at h1
    rw [hc] at h1
    have ht := takeFace_ok size idx counts[k] (startOf counts k) [] (by omega) h1
    have hi := ih (k + 1) (by omega) (fun j h2 h3 => hv j (by omega) (by omega))
    conv_lhs => rw [List.drop_eq_getElem_cons hlt]; unfold meshLoop; rw [ht]
    dsimp only
    rw [← hs, hi, List.range'_succ, List.map_cons, List.cons_append]
    have e : k + 1 + m = k + (m + 1) := by omega
    rw [e]
    have hf : (⟨k, startOf counts k, [].reverse ++ List.take counts[k] (List.drop (startOf counts k) idx)⟩ : Face)
        = givenFace counts idx k := by
      unfold givenFace givenIndices
      rw [hc]; simp
    rw [hf]

/-- If all indices are valid, the mesh is split into its faces, in their order; each has its own indices, its number (for
uniform values) and the place of its first index (for face varying values). If not, this is so for the faces before the
first one with an invalid index, and no other face that has vertices is kept. Missing: the faces after it. -/
theorem C65_mesh_partial (size : Nat) (counts : List Nat) (idx : List Int) (hlen : counts.sum ≤ idx.length) :
    ((∀ k < counts.length, ∀ i ∈ givenIndices counts idx k, valid size i) →
      splitMesh size counts idx = (List.range counts.length).map (givenFace counts idx)) ∧
    (∀ m < counts.length, (∀ k < m, ∀ i ∈ givenIndices counts idx k, valid size i) →
      (∃ i ∈ givenIndices counts idx m, ¬ valid size i) →
      (splitMesh size counts idx).filter (fun f => f.indices ≠ [])
        = ((List.range m).map (givenFace counts idx)).filter (fun f => f.indices ≠ [])) := by
  constructor
  · intro hv
    have := meshLoop_append size counts idx hlen 0 counts.length (by omega) (fun j _ h => hv j (by omega))
    unfold splitMesh
    have e0 : startOf counts 0 = 0 := rfl
    rw [e0, List.drop_zero, Nat.zero_add, List.drop_length] at this
    rw [this]
    simp [meshLoop, List.range_eq_range']
  · intro m hm hv hbad
    have := meshLoop_append size counts idx hlen 0 m (by omega) (fun j _ h => hv j (by omega))
    have e0 : startOf counts 0 = 0 := rfl
    rw [e0, List.drop_zero, Nat.zero_add] at this
    unfold splitMesh
    rw [this, List.filter_append, ← List.range_eq_range']
    have hz : ∀ (cs : List Nat) (poly iP : Nat), (emptyFaces poly iP cs).filter (fun f => f.indices ≠ []) = [] := by
      intro cs
      induction cs with
      | nil => intro poly iP; rfl
      | cons c cs ih =>
        intro poly iP
        unfold emptyFaces
        split_ifs
        · rw [List.filter_cons_of_neg (by simp)]; exact ih _ _
        · exact ih _ _
    have hs : startOf counts m + counts[m] ≤ counts.sum := by
      unfold startOf
      conv_rhs => rw [← List.take_append_drop (m + 1) counts]
      rw [List.sum_append, List.take_succ_eq_append_getElem hm, List.sum_append]; simp
    have hc : counts.getD m 0 = counts[m] := by
      rw [List.getD_eq_getElem?_getD, List.getElem?_eq_getElem hm]; rfl
    unfold givenIndices at hbad
    rw [hc] at hbad
    obtain ⟨j, h1, _, _, h4⟩ := takeFace_bad size idx counts[m] (startOf counts m) [] (by omega) hbad
    conv_lhs => rw [List.drop_eq_getElem_cons hm]
    unfold meshLoop
    rw [h1]
    dsimp only
    rw [meshLoop_stuck size idx _ _ _ h4, hz, List.append_nil]

example : splitMesh 4 [3, 3] [0, 1, 2, 0, 2, 3] = [⟨0, 0, [0, 1, 2]⟩, ⟨1, 3, [0, 2, 3]⟩] := by decide

/-- A face with an invalid index makes that all faces after it are lost, though their indices are valid. -/
theorem C65_mesh_violated :
    (∀ i ∈ givenIndices [3, 3] [0, 1, -1, 0, 1, 2] 1, valid 3 i) ∧ splitMesh 3 [3, 3] [0, 1, -1, 0, 1, 2] = [] := by
  decide

/-- The values of the vertices of a face of a mesh: varying ones by index, face varying ones by their place in the list, and
uniform ones by the number of the face. -/
theorem C65_mesh_values {K : Type} [Field K] (size : Nat) (counts : List Nat) (idx : List Int) (hlen : counts.sum ≤ idx.length)
    (hv : ∀ k < counts.length, ∀ i ∈ givenIndices counts idx k, valid size i) (k : Nat) (hk : k < counts.length) :
    ∃ f, (splitMesh size counts idx)[k]? = some f ∧
      (∀ (vals : Int → K) p, (∀ i ∈ [p.a, p.b, p.c, p.d], i < counts.getD k 0) →
        varyingQuad f vals p = pieceQuad (fun i => vals (idx.getD (startOf counts k + i) 0)) p) ∧
      (∀ (vals : Nat → K) p, faceVaryingQuad f vals p = pieceQuad (fun i => vals (startOf counts k + i)) p) ∧
      (∀ vals : Nat → K, uniformValue f vals = vals k) := by
  refine ⟨givenFace counts idx k, ?_, ?_, fun vals p => rfl, fun vals => rfl⟩
  · rw [(C65_mesh_partial size counts idx hlen).1 hv]
    simp [hk]
  · intro vals p hp
    have hs : startOf counts k + counts[k] ≤ counts.sum := by
      unfold startOf
      conv_rhs => rw [← List.take_append_drop (k + 1) counts]
      rw [List.sum_append, List.take_succ_eq_append_getElem hk, List.sum_append]; simp
    have hc : counts.getD k 0 = counts[k] := by
      rw [List.getD_eq_getElem?_getD, List.getElem?_eq_getElem hk]; rfl
    have hi : ∀ i < counts.getD k 0, (givenFace counts idx k).polyIndex i = idx.getD (startOf counts k + i) 0 := by
      intro i hi
      unfold Face.polyIndex givenFace givenIndices
      dsimp only
      rw [hc] at hi ⊢
      rw [if_pos (by rw [List.length_take, List.length_drop]; omega)]
      rw [List.getD_eq_getElem?_getD, List.getElem?_take_of_lt hi, List.getElem?_drop, List.getD_eq_getElem?_getD]
    unfold varyingQuad pieceQuad
    dsimp only
    rw [hi p.a (hp _ (by simp)), hi p.b (hp _ (by simp)), hi p.c (hp _ (by simp)), hi p.d (hp _ (by simp))]

end Verif.Geom.Polygon
