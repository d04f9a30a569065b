import Verif.Geom.BilinearLemmas
import Mathlib.Data.Rat.Floor
import Mathlib.Tactic.Push

/-!
# C63: bilinear patches and triangles

Splitting a patch or a triangle gives pieces that together are the same surface; bounds contain the surface; the line test of a
triangular grid keeps exactly the triangle; splitting ends.
-/

namespace Verif.Geom.Bilinear

variable {K : Type} [Field K] [LinearOrder K] [IsStrictOrderedRing K]

/-- **C63** The pieces cover the patch: each point of the surface is a point of a piece, with the same value of every variable. -/
theorem C63_split_cover (phantom u : Bool) (s t : K) (h : Region phantom s t) :
    ∃ (k : ℕ) (f : Bool) (s' t' : K), Region f s' t' ∧
      ∀ q : Quad K, ∃ p, (pieces phantom u q)[k]? = some (p, f) ∧ p.at s' t' = q.at s t := by
  obtain ⟨s0, s1, t0, t1, hp⟩ := h
  have no : ∀ x y : K, false = true → x + y ≤ 1 := fun _ _ h => by cases h
  cases phantom with
  | false =>
    cases u with
    | true =>
      by_cases c : s ≤ 1 / 2
      · refine ⟨0, false, 2 * s, t, ⟨by linarith, by linarith, t0, t1, no _ _⟩, fun q => ⟨_, rfl, ?_⟩⟩
        rw [(split_u q _ _).1]; congr 1; ring
      · refine ⟨1, false, 2 * s - 1, t, ⟨by linarith, by linarith, t0, t1, no _ _⟩, fun q => ⟨_, rfl, ?_⟩⟩
        rw [(split_u q _ _).2]; congr 1; ring
    | false =>
      by_cases c : t ≤ 1 / 2
      · refine ⟨0, false, s, 2 * t, ⟨s0, s1, by linarith, by linarith, no _ _⟩, fun q => ⟨_, rfl, ?_⟩⟩
        rw [(split_v q _ _).1]; congr 1; ring
      · refine ⟨1, false, s, 2 * t - 1, ⟨s0, s1, by linarith, by linarith, no _ _⟩, fun q => ⟨_, rfl, ?_⟩⟩
        rw [(split_v q _ _).2]; congr 1; ring
  | true =>
    have hst := hp rfl
    by_cases cs : s ≤ 1 / 2
    · by_cases ct : t ≤ 1 / 2
      · refine ⟨0, false, 2 * s, 2 * t, ⟨by linarith, by linarith, by linarith, by linarith, no _ _⟩, ?_⟩
        cases u with
        | true =>
          refine fun q => ⟨_, rfl, ?_⟩
          show ((q.split true).1.split false).1.at _ _ = _
          rw [(split_v _ _ _).1, (split_u _ _ _).1]; congr 1 <;> ring
        | false =>
          refine fun q => ⟨_, rfl, ?_⟩
          show ((q.split false).1.split true).1.at _ _ = _
          rw [(split_u _ _ _).1, (split_v _ _ _).1]; congr 1 <;> ring
      · cases u with
        | true =>
          refine ⟨1, true, 2 * s, 2 * t - 1, ⟨by linarith, by linarith, by linarith, by linarith, fun _ => by linarith⟩,
            fun q => ⟨_, rfl, ?_⟩⟩
          show ((q.split true).1.split false).2.at _ _ = _
          rw [(split_v _ _ _).2, (split_u _ _ _).1]; congr 1 <;> ring
        | false =>
          refine ⟨2, true, 2 * s, 2 * t - 1, ⟨by linarith, by linarith, by linarith, by linarith, fun _ => by linarith⟩,
            fun q => ⟨_, rfl, ?_⟩⟩
          show ((q.split false).2.split true).1.at _ _ = _
          rw [(split_u _ _ _).1, (split_v _ _ _).2]; congr 1 <;> ring
    · cases u with
      | true =>
        refine ⟨2, true, 2 * s - 1, 2 * t, ⟨by linarith, by linarith, by linarith, by linarith, fun _ => by linarith⟩,
          fun q => ⟨_, rfl, ?_⟩⟩
        show ((q.split true).2.split false).1.at _ _ = _
        rw [(split_v _ _ _).1, (split_u _ _ _).2]; congr 1 <;> ring
      | false =>
        refine ⟨1, true, 2 * s - 1, 2 * t, ⟨by linarith, by linarith, by linarith, by linarith, fun _ => by linarith⟩,
          fun q => ⟨_, rfl, ?_⟩⟩
        show ((q.split false).1.split true).2.at _ _ = _
        rw [(split_u _ _ _).2, (split_v _ _ _).1]; congr 1 <;> ring

example : Region (K := ℚ) true (1 / 3) (2 / 3) := by unfold Region; norm_num

/-- Where a point of piece `k` is in the parameter square of the whole patch. -/
def place (phantom u : Bool) (k : ℕ) (s t : K) : K × K :=
  match phantom, u, k with
  | true, _, 0 => (s / 2, t / 2)
  | true, true, 1 => (s / 2, (1 + t) / 2)
  | true, false, 1 => ((1 + s) / 2, t / 2)
  | true, true, _ + 2 => ((1 + s) / 2, t / 2)
  | true, false, _ + 2 => (s / 2, (1 + t) / 2)
  | false, true, 0 => (s / 2, t)
  | false, false, 0 => (s, t / 2)
  | false, true, _ + 1 => ((1 + s) / 2, t)
  | false, false, _ + 1 => (s, (1 + t) / 2)

theorem pieces_at (phantom u : Bool) (k : ℕ) (q p : Quad K) (f : Bool) (s t : K) (h : (pieces phantom u q)[k]? = some (p, f)) :
    p.at s t = q.at (place phantom u k s t).1 (place phantom u k s t).2 := by
  cases phantom with
  | false =>
    have h' : [((q.split u).1, false), ((q.split u).2, false)][k]? = some (p, f) := h
    match k, h' with
    | 0, h' =>
      injection h' with e; injection e with e1 _; rw [← e1]
      cases u
      · exact (split_v q s t).1
      · exact (split_u q s t).1
    | 1, h' =>
      injection h' with e; injection e with e1 _; rw [← e1]
      cases u
      · exact (split_v q s t).2
      · exact (split_u q s t).2
  | true =>
    have h' : [(((q.split u).1.split (!u)).1, false), (((q.split u).1.split (!u)).2, true), (((q.split u).2.split (!u)).1, true)][k]? =
        some (p, f) := h
    match k, h' with
    | 0, h' =>
      injection h' with e; injection e with e1 _; rw [← e1]
      cases u
      · exact ((split_u _ s t).1).trans (split_v q _ _).1
      · exact ((split_v _ s t).1).trans (split_u q _ _).1
    | 1, h' =>
      injection h' with e; injection e with e1 _; rw [← e1]
      cases u
      · exact ((split_u _ s t).2).trans (split_v q _ _).1
      · exact ((split_v _ s t).2).trans (split_u q _ _).1
    | 2, h' =>
      injection h' with e; injection e with e1 _; rw [← e1]
      cases u
      · exact ((split_u _ s t).1).trans (split_v q _ _).2
      · exact ((split_v _ s t).1).trans (split_u q _ _).2

/-- The number of pieces and their flags. -/
theorem pieces_flag {phantom u : Bool} {k : ℕ} {q p : Quad K} {f : Bool} (h : (pieces phantom u q)[k]? = some (p, f)) :
    k < (if phantom then 3 else 2) ∧ f = (phantom && decide (k ≠ 0)) := by
  cases phantom with
  | false =>
    have h' : [((q.split u).1, false), ((q.split u).2, false)][k]? = some (p, f) := h
    match k, h' with
    | 0, h' => injection h' with e; injection e with _ e2; exact ⟨by decide, e2.symm⟩
    | 1, h' => injection h' with e; injection e with _ e2; exact ⟨by decide, e2.symm⟩
  | true =>
    have h' : [(((q.split u).1.split (!u)).1, false), (((q.split u).1.split (!u)).2, true), (((q.split u).2.split (!u)).1, true)][k]? =
        some (p, f) := h
    match k, h' with
    | 0, h' => injection h' with e; injection e with _ e2; exact ⟨by decide, e2.symm⟩
    | 1, h' => injection h' with e; injection e with _ e2; exact ⟨by decide, e2.symm⟩
    | 2, h' => injection h' with e; injection e with _ e2; exact ⟨by decide, e2.symm⟩

/-- **C63** The pieces are inside of the patch: each point of a piece is a point of the surface, with the same value of every
variable. -/
theorem C63_split_inside (phantom u : Bool) (k : ℕ) (f : Bool) (s' t' : K) (q0 p0 : Quad K)
    (h0 : (pieces phantom u q0)[k]? = some (p0, f)) (h : Region f s' t') :
    ∃ s t, Region phantom s t ∧ ∀ q p : Quad K, (pieces phantom u q)[k]? = some (p, f) → p.at s' t' = q.at s t := by
  refine ⟨_, _, ?_, fun q p hq => pieces_at phantom u k q p f s' t' hq⟩
  obtain ⟨hk, hf⟩ := pieces_flag h0
  obtain ⟨s0, s1, t0, t1, hp⟩ := h
  have no : ∀ x y : K, false = true → x + y ≤ 1 := fun _ _ h => by cases h
  cases phantom with
  | false =>
    rcases (by simp at hk; omega : k = 0 ∨ k = 1) with rfl | rfl <;> cases u <;>
      simp only [place, if_true, Bool.false_eq_true, if_false] <;>
      exact ⟨by linarith, by linarith, by linarith, by linarith, no _ _⟩
  | true =>
    rcases (by simp at hk; omega : k = 0 ∨ k = 1 ∨ k = 2) with rfl | rfl | rfl
    · simp only [place, if_true]
      exact ⟨by linarith, by linarith, by linarith, by linarith, fun _ => by linarith⟩
    · have := hp (by rw [hf]; rfl)
      cases u <;> simp only [place, if_true, Bool.false_eq_true, if_false] <;>
        exact ⟨by linarith, by linarith, by linarith, by linarith, fun _ => by linarith⟩
    · have := hp (by rw [hf]; rfl)
      cases u <;> simp only [place, if_true, Bool.false_eq_true, if_false] <;>
        exact ⟨by linarith, by linarith, by linarith, by linarith, fun _ => by linarith⟩

example : (pieces true true (⟨0, 4, 8, 12⟩ : Quad ℚ))[2]? = some (⟨2, 4, 6, 8⟩, true) := by decide +kernel

/-- **C63** The pieces do not overlap: two pieces never have the same parameters, u as in the quad (0, 1, 0, 1) and v as in (0, 0, 1, 1),
at interior points. -/
theorem C63_split_disjoint (phantom u : Bool) (k k' : ℕ) (f f' : Bool) (pu pv pu' pv' : Quad K) (s t s' t' : K)
    (h1 : (pieces phantom u ⟨0, 1, 0, 1⟩)[k]? = some (pu, f)) (h2 : (pieces phantom u ⟨0, 0, 1, 1⟩)[k]? = some (pv, f))
    (h3 : (pieces phantom u ⟨0, 1, 0, 1⟩)[k']? = some (pu', f')) (h4 : (pieces phantom u ⟨0, 0, 1, 1⟩)[k']? = some (pv', f'))
    (hi : Interior f s t) (hi' : Interior f' s' t') (eu : pu.at s t = pu'.at s' t') (ev : pv.at s t = pv'.at s' t') : k = k' := by
  rw [pieces_at _ _ _ _ _ _ _ _ h1, pieces_at _ _ _ _ _ _ _ _ h3] at eu
  rw [pieces_at _ _ _ _ _ _ _ _ h2, pieces_at _ _ _ _ _ _ _ _ h4] at ev
  have au : ∀ x y : K, (⟨0, 1, 0, 1⟩ : Quad K).at x y = x := by intro x y; simp only [Quad.at]; ring
  have av : ∀ x y : K, (⟨0, 0, 1, 1⟩ : Quad K).at x y = y := by intro x y; simp only [Quad.at]; ring
  rw [au, au] at eu
  rw [av, av] at ev
  obtain ⟨hk, hf⟩ := pieces_flag h1
  obtain ⟨hk', hf'⟩ := pieces_flag h3
  obtain ⟨s0, s1, t0, t1, -⟩ := hi
  obtain ⟨s0', s1', t0', t1', -⟩ := hi'
  by_contra hne
  cases phantom with
  | false =>
    rcases (by simp at hk; omega : k = 0 ∨ k = 1) with rfl | rfl <;>
    rcases (by simp at hk'; omega : k' = 0 ∨ k' = 1) with rfl | rfl <;>
    first
    | exact hne rfl
    | (cases u <;> simp only [place, if_true, Bool.false_eq_true, if_false] at eu ev <;> linarith)
  | true =>
    rcases (by simp at hk; omega : k = 0 ∨ k = 1 ∨ k = 2) with rfl | rfl | rfl <;>
    rcases (by simp at hk'; omega : k' = 0 ∨ k' = 1 ∨ k' = 2) with rfl | rfl | rfl <;>
    first
    | exact hne rfl
    | (cases u <;> simp only [place, if_true, Bool.false_eq_true, if_false] at eu ev <;> linarith)

example : Interior (K := ℚ) true (1 / 3) (1 / 3) := by unfold Interior; norm_num

/-- **C63** On a triangle the values are those of linear interpolation between the three vertices, and the pieces of a triangle are
again such parallelograms, so that this stays true. -/
theorem C63_phantom (a b c s t : K) :
    (phantomQuad a b c).at s t = (1 - s - t) * a + s * b + t * c ∧
    ∀ (u : Bool) (p : Quad K) (f : Bool), (p, f) ∈ pieces true u (phantomQuad a b c) → p = phantomQuad p.a p.b p.c := by
  refine ⟨by simp only [phantomQuad, Quad.at]; ring, ?_⟩
  have key : ∀ (u : Bool) (q : Quad K), q.d = q.b - q.a + q.c →
      (q.split u).1.d = (q.split u).1.b - (q.split u).1.a + (q.split u).1.c ∧
      (q.split u).2.d = (q.split u).2.b - (q.split u).2.a + (q.split u).2.c := by
    intro u q hq
    cases u <;> simp only [Quad.split, if_true, Bool.false_eq_true, if_false, hq] <;> constructor <;> ring
  have fin : ∀ q : Quad K, q.d = q.b - q.a + q.c → q = phantomQuad q.a q.b q.c := by
    rintro ⟨a, b, c, d⟩ h
    simp only at h
    simp only [phantomQuad, h]
  intro u p f hp
  have h0 : (phantomQuad a b c).d = (phantomQuad a b c).b - (phantomQuad a b c).a + (phantomQuad a b c).c := rfl
  obtain ⟨h1, h2⟩ := key u _ h0
  have hp' : (p, f) ∈ [((((phantomQuad a b c).split u).1.split (!u)).1, false), ((((phantomQuad a b c).split u).1.split (!u)).2, true),
    ((((phantomQuad a b c).split u).2.split (!u)).1, true)] := hp
  simp only [List.mem_cons, Prod.mk.injEq, List.not_mem_nil, or_false] at hp'
  apply fin
  rcases hp' with ⟨e, -⟩ | ⟨e, -⟩ | ⟨e, -⟩ <;> rw [e]
  · exact (key (!u) _ h1).1
  · exact (key (!u) _ h1).2
  · exact (key (!u) _ h2).1

example : (phantomQuad 0 2 4 : Quad ℚ) = ⟨0, 2, 4, 6⟩ := by decide +kernel

/-- **C63** The bound of a patch contains its surface, and that of a triangle contains the triangle; both are as small as possible. -/
theorem C63_bound (big : K) (phantom : Bool) (q : Quad K) (hq : phantom = true → q = phantomQuad q.a q.b q.c)
    (ha : -big ≤ q.a ∧ q.a ≤ big) :
    (∀ s t, Region phantom s t → (q.bound big phantom).1 ≤ q.at s t ∧ q.at s t ≤ (q.bound big phantom).2) ∧
    (∃ s t, Region phantom s t ∧ q.at s t = (q.bound big phantom).1) ∧
    (∃ s t, Region phantom s t ∧ q.at s t = (q.bound big phantom).2) := by
  have corner : ∀ v, v ∈ (if phantom then [q.a, q.b, q.c] else [q.a, q.b, q.c, q.d]) → ∃ s t, Region phantom s t ∧ q.at s t = v := by
    intro v hv
    cases phantom with
    | false =>
      simp only [Bool.false_eq_true, if_false, List.mem_cons, List.not_mem_nil, or_false] at hv
      have no : ∀ x y : K, false = true → x + y ≤ 1 := fun _ _ h => by cases h
      rcases hv with e | e | e | e
      · exact ⟨0, 0, ⟨by norm_num, by norm_num, by norm_num, by norm_num, no _ _⟩, by simp only [Quad.at, e]; ring⟩
      · exact ⟨1, 0, ⟨by norm_num, by norm_num, by norm_num, by norm_num, no _ _⟩, by simp only [Quad.at, e]; ring⟩
      · exact ⟨0, 1, ⟨by norm_num, by norm_num, by norm_num, by norm_num, no _ _⟩, by simp only [Quad.at, e]; ring⟩
      · exact ⟨1, 1, ⟨by norm_num, by norm_num, by norm_num, by norm_num, no _ _⟩, by simp only [Quad.at, e]; ring⟩
    | true =>
      simp only [if_true, List.mem_cons, List.not_mem_nil, or_false] at hv
      rcases hv with e | e | e
      · exact ⟨0, 0, ⟨by norm_num, by norm_num, by norm_num, by norm_num, fun _ => by norm_num⟩, by simp only [Quad.at, e]; ring⟩
      · exact ⟨1, 0, ⟨by norm_num, by norm_num, by norm_num, by norm_num, fun _ => by norm_num⟩, by simp only [Quad.at, e]; ring⟩
      · exact ⟨0, 1, ⟨by norm_num, by norm_num, by norm_num, by norm_num, fun _ => by norm_num⟩, by simp only [Quad.at, e]; ring⟩
  obtain ⟨-, -, hall⟩ := bound_fold (if phantom then [q.a, q.b, q.c] else [q.a, q.b, q.c, q.d]) (big, -big)
  obtain ⟨m1, m2⟩ := bound_fold_mem (if phantom then [q.a, q.b, q.c] else [q.a, q.b, q.c, q.d]) (big, -big)
  change ∀ v ∈ _, (q.bound big phantom).1 ≤ v ∧ v ≤ (q.bound big phantom).2 at hall
  change (q.bound big phantom).1 = big ∨ (q.bound big phantom).1 ∈ _ at m1
  change (q.bound big phantom).2 = -big ∨ (q.bound big phantom).2 ∈ _ at m2
  have hma : q.a ∈ (if phantom then [q.a, q.b, q.c] else [q.a, q.b, q.c, q.d]) := by cases phantom <;> exact List.mem_cons_self
  have m1' : (q.bound big phantom).1 ∈ (if phantom then [q.a, q.b, q.c] else [q.a, q.b, q.c, q.d]) := by
    rcases m1 with e | h
    · have : q.a = (q.bound big phantom).1 := le_antisymm (by rw [e]; exact ha.2) (hall _ hma).1
      rw [← this]; exact hma
    · exact h
  have m2' : (q.bound big phantom).2 ∈ (if phantom then [q.a, q.b, q.c] else [q.a, q.b, q.c, q.d]) := by
    rcases m2 with e | h
    · have : q.a = (q.bound big phantom).2 := le_antisymm (hall _ hma).2 (by rw [e]; exact ha.1)
      rw [← this]; exact hma
    · exact h
  refine ⟨?_, corner _ m1', corner _ m2'⟩
  rintro s t ⟨s0, s1, t0, t1, hp⟩
  obtain ⟨a1, a2⟩ := hall _ hma
  obtain ⟨b1, b2⟩ := hall q.b (by cases phantom <;> simp)
  obtain ⟨c1, c2⟩ := hall q.c (by cases phantom <;> simp)
  generalize (q.bound big phantom).1 = lo at *
  generalize (q.bound big phantom).2 = hi at *
  cases phantom with
  | false =>
    obtain ⟨d1, d2⟩ := hall q.d (by simp)
    have w1 : 0 ≤ (1 - s) * (1 - t) := mul_nonneg (by linarith) (by linarith)
    have w2 : 0 ≤ s * (1 - t) := mul_nonneg (by linarith) (by linarith)
    have w3 : 0 ≤ (1 - s) * t := mul_nonneg (by linarith) (by linarith)
    have w4 : 0 ≤ s * t := mul_nonneg (by linarith) (by linarith)
    have l1 := mul_le_mul_of_nonneg_left a1 w1
    have l2 := mul_le_mul_of_nonneg_left b1 w2
    have l3 := mul_le_mul_of_nonneg_left c1 w3
    have l4 := mul_le_mul_of_nonneg_left d1 w4
    have u1 := mul_le_mul_of_nonneg_left a2 w1
    have u2 := mul_le_mul_of_nonneg_left b2 w2
    have u3 := mul_le_mul_of_nonneg_left c2 w3
    have u4 := mul_le_mul_of_nonneg_left d2 w4
    have e : ∀ x : K, (1 - s) * (1 - t) * x + s * (1 - t) * x + (1 - s) * t * x + s * t * x = x := by intro x; ring
    unfold Quad.at
    constructor
    · rw [← e lo]; linarith
    · rw [← e hi]; linarith
  | true =>
    rw [hq rfl, (C63_phantom _ _ _ s t).1]
    have w1 : 0 ≤ 1 - s - t := by have := hp rfl; linarith
    have l1 := mul_le_mul_of_nonneg_left a1 w1
    have l2 := mul_le_mul_of_nonneg_left b1 s0
    have l3 := mul_le_mul_of_nonneg_left c1 t0
    have u1 := mul_le_mul_of_nonneg_left a2 w1
    have u2 := mul_le_mul_of_nonneg_left b2 s0
    have u3 := mul_le_mul_of_nonneg_left c2 t0
    have e : ∀ x : K, (1 - s - t) * x + s * x + t * x = x := by intro x; ring
    constructor
    · rw [← e lo]; linarith
    · rw [← e hi]; linarith

example : (phantomQuad 0 2 4 : Quad ℚ).bound 1000 true = (0, 4) := by decide +kernel

/-! ## The line of a triangular grid -/

/-- **C63** Of a triangular grid that is not degenerate in the raster, a hit at the point with parameters (`s`, `t`) is kept exactly if it
is on the side of the first vertex. -/
theorem C63_triangle (v0 v1 v2 : Pt K) (s t : K) (h : cross (v1.x - v0.x) (v1.y - v0.y) (v2.x - v0.x) (v2.y - v0.y) ≠ 0) :
    kept v0 v1 v2 ⟨(phantomQuad v0.x v1.x v2.x).at s t, (phantomQuad v0.y v1.y v2.y).at s t⟩ = true ↔ s + t < 1 := by
  unfold kept splitLine
  unfold cross at h
  dsimp only
  rw [(C63_phantom _ _ _ s t).1, (C63_phantom _ _ _ s t).1]
  generalize hX : (v1.x - v0.x) * (v2.y - v0.y) - (v1.y - v0.y) * (v2.x - v0.x) = X at h ⊢
  by_cases hc : X ≥ 0
  · rw [if_pos hc]
    have hp : 0 < X := lt_of_le_of_ne hc (Ne.symm h)
    have e : (v1.y - v2.y) * ((1 - s - t) * v0.x + s * v1.x + t * v2.x) + (v2.x - v1.x) * ((1 - s - t) * v0.y + s * v1.y + t * v2.y) +
        (v1.x * v2.y - v2.x * v1.y) = (1 - (s + t)) * X := by rw [← hX]; ring
    dsimp only
    rw [e, Bool.not_eq_true', decide_eq_false_iff_not, not_le, mul_pos_iff_of_pos_right hp]
    constructor <;> intro h <;> linarith
  · rw [if_neg hc]
    have hp : 0 < -X := by push Not at hc; linarith
    have e : (v2.y - v1.y) * ((1 - s - t) * v0.x + s * v1.x + t * v2.x) + (v1.x - v2.x) * ((1 - s - t) * v0.y + s * v1.y + t * v2.y) +
        (v2.x * v1.y - v1.x * v2.y) = (1 - (s + t)) * (-X) := by rw [← hX]; ring
    dsimp only
    rw [e, Bool.not_eq_true', decide_eq_false_iff_not, not_le, mul_pos_iff_of_pos_right hp]
    constructor <;> intro h <;> linarith

example : kept (⟨0, 0⟩ : Pt ℚ) ⟨2, 0⟩ ⟨0, 2⟩ ⟨1 / 2, 1 / 2⟩ = true ∧ kept (⟨0, 0⟩ : Pt ℚ) ⟨0, 2⟩ ⟨2, 0⟩ ⟨3 / 2, 3 / 2⟩ = false := by
  constructor <;> decide +kernel

/-- **C63 (negation)** Two triangles that share the edge opposite of their first vertices leave a gap: a sample exactly on this edge is
kept by neither. -/
theorem C63_edge_violated (v0 w0 v1 v2 : Pt K) (r : K) :
    kept v0 v1 v2 ⟨(1 - r) * v1.x + r * v2.x, (1 - r) * v1.y + r * v2.y⟩ = false ∧
    kept w0 v2 v1 ⟨(1 - r) * v1.x + r * v2.x, (1 - r) * v1.y + r * v2.y⟩ = false := by
  have e1 : (v1.y - v2.y) * ((1 - r) * v1.x + r * v2.x) + (v2.x - v1.x) * ((1 - r) * v1.y + r * v2.y) + (v1.x * v2.y - v2.x * v1.y) = 0 := by
    ring
  have e2 : (v2.y - v1.y) * ((1 - r) * v1.x + r * v2.x) + (v1.x - v2.x) * ((1 - r) * v1.y + r * v2.y) + (v2.x * v1.y - v1.x * v2.y) = 0 := by
    ring
  constructor
  · unfold kept splitLine
    dsimp only
    split_ifs
    · dsimp only; rw [e1]; simp
    · dsimp only; rw [e2]; simp
  · unfold kept splitLine
    dsimp only
    split_ifs
    · dsimp only; rw [e2]; simp
    · dsimp only; rw [e1]; simp

example : kept (⟨0, 0⟩ : Pt ℚ) ⟨2, 0⟩ ⟨0, 2⟩ ⟨1, 1⟩ = false ∧ kept (⟨2, 2⟩ : Pt ℚ) ⟨0, 2⟩ ⟨2, 0⟩ ⟨1, 1⟩ = false := by
  constructor <;> decide +kernel

/-! ## Splitting ends -/

/-- Specification: a hull after `n` splits, each in the longer direction. -/
inductive Splits : ℕ → Hull K × Bool → Hull K × Bool → Prop
  | refl (h : Hull K × Bool) : Splits 0 h h
  | step {n : ℕ} {g h p : Hull K × Bool} (hg : Splits n g h) (hp : p ∈ hullPieces h.2 (splitU h.1) h.1) : Splits (n + 1) g p

/-- **C63** If the projection to the raster is affine, the longer one of the lengths of a patch or a triangle is halved by every two
splits. -/
theorem C63_split_shrinks (n : ℕ) (g p : Hull K × Bool) (h : Splits (2 * n) g p) :
    max (uLen2 p.1) (vLen2 p.1) ≤ max (uLen2 g.1) (vLen2 g.1) / 4 ^ n := by
  induction n generalizing p with
  | zero =>
    cases h
    simp
  | succ n ih =>
    rw [show 2 * (n + 1) = 2 * n + 1 + 1 by ring] at h
    cases h with
    | @step _ _ h2 _ hg2 hp =>
      cases hg2 with
      | @step _ _ h1 _ hg1 hp1 =>
        have hi := ih h1 hg1
        obtain ⟨a1, a2, a3, a4⟩ := hullPieces_len h1.2 h1.1 h2.1 h2.2 hp1
        obtain ⟨b1, b2, b3, b4⟩ := hullPieces_len h2.2 h2.1 p.1 p.2 hp
        have u1 := uLen2_nonneg h1.1
        have v1 := vLen2_nonneg h1.1
        have key : max (uLen2 p.1) (vLen2 p.1) ≤ max (uLen2 h1.1) (vLen2 h1.1) / 4 := by
          by_cases c1 : uLen2 h1.1 > vLen2 h1.1
          · have := a3 c1
            rw [max_eq_left (le_of_lt c1)]
            by_cases c2 : uLen2 h2.1 > vLen2 h2.1
            · have := b3 c2
              exact max_le (by linarith) (by linarith)
            · have := b4 c2
              exact max_le (by linarith) (by linarith)
          · have := a4 c1
            rw [max_eq_right (not_lt.1 c1)]
            by_cases c2 : uLen2 h2.1 > vLen2 h2.1
            · have := b3 c2
              have := not_lt.1 c1
              exact max_le (by linarith) (by linarith)
            · have := b4 c2
              have := not_lt.1 c2
              exact max_le (by linarith) (by linarith)
        rw [pow_succ, ← div_div]
        calc max (uLen2 p.1) (vLen2 p.1) ≤ max (uLen2 h1.1) (vLen2 h1.1) / 4 := key
          _ ≤ max (uLen2 g.1) (vLen2 g.1) / 4 ^ n / 4 := by linarith

example : uLen2 (fun _ => (⟨0, 4, 0, 4⟩ : Quad ℚ)) = 48 ∧ vLen2 (fun _ => (⟨0, 4, 0, 4⟩ : Quad ℚ)) = 0 := by
  constructor <;> decide +kernel

variable [FloorRing K]

/-- **C63** A patch that is diced has at least one and at most `gs²` micropolygons, with no side longer than one and a half times the
wanted one; a patch with both lengths below one and a half is diced; no patch is discarded. The lengths are divided by the square root of
the shading rate. Without rounding to powers of two. -/
theorem C63_dice (eps gs uLen vLen : K) (hg : 1 ≤ gs) (he : eps ≤ 1) (hu : 0 ≤ uLen) (hv : 0 ≤ vLen) :
    ∃ (b : Bool) (u v : ℤ), diceable eps gs id uLen vLen = some (b, u, v) ∧ 1 ≤ u ∧ 1 ≤ v ∧
      uLen ≤ 3 / 2 * u ∧ vLen ≤ 3 / 2 * v ∧ (b = true → ((u * v : ℤ) : K) ≤ gs * gs) ∧
      (uLen < 3 / 2 → vLen < 3 / 2 → b = true) := by
  have one : ∀ L : K, 1 ≤ diceSize L := fun L => le_max_right _ _
  have oneK : ∀ L : K, (1 : K) ≤ (diceSize L : K) := fun L => by exact_mod_cast one L
  have side : ∀ L : K, L ≤ 3 / 2 * (diceSize L : K) := by
    intro L
    have h1 : (lround L : K) ≤ (diceSize L : K) := by exact_mod_cast le_max_left (lround L) 1
    have h2 : L - 1 / 2 < (⌊L - 1 / 2⌋ : K) + 1 := Int.lt_floor_add_one _
    have h3 : ((lround L : ℤ) : K) = (⌊L - 1 / 2⌋ : K) + 1 := by unfold lround; push_cast; ring
    have h4 := oneK L
    linarith
  have small : ∀ L : K, L < 3 / 2 → diceSize L = 1 := by
    intro L h
    apply max_eq_right
    unfold lround
    have : ⌊L - 1 / 2⌋ < 1 := Int.floor_lt.2 (by push_cast; linarith)
    omega
  have hgg : 1 ≤ gs * gs := by nlinarith
  have hd : diceable eps gs id uLen vLen =
      if ((diceSize uLen : ℤ) : K) > gs * gs ∨ ((diceSize vLen : ℤ) : K) > gs * gs ∨ ((diceSize uLen * diceSize vLen : ℤ) : K) > gs * gs
      then some (false, diceSize uLen, diceSize vLen) else some (true, diceSize uLen, diceSize vLen) := by
    unfold diceable
    dsimp only [id]
    rw [if_neg]
    push Not
    exact ⟨he.trans (oneK _), he.trans (oneK _)⟩
  by_cases c : ((diceSize uLen : ℤ) : K) > gs * gs ∨ ((diceSize vLen : ℤ) : K) > gs * gs ∨
      ((diceSize uLen * diceSize vLen : ℤ) : K) > gs * gs
  · refine ⟨false, _, _, by rw [hd, if_pos c], one _, one _, side _, side _, (fun h => by cases h), ?_⟩
    intro h1 h2
    exfalso
    rw [small _ h1, small _ h2] at c
    push_cast at c
    rcases c with c | c | c <;> linarith
  · refine ⟨true, _, _, by rw [hd, if_neg c], one _, one _, side _, side _, fun _ => ?_, fun _ _ => rfl⟩
    push Not at c
    exact c.2.2

example : diceable (1 / 1000 : ℚ) 16 id (17 / 2) (3 / 10) = some (true, 9, 1) := by decide +kernel

/-! ## Powers of two -/

/-- **C63 (negation)** Rounding up to a power of two is undefined for every number: the loop shifts a 32 bit number by 32 places. -/
theorem C63_pow2_violated (x : ℕ) : ceilPow2 shr x = none := by
  have : ∀ y, fillBits shr 32 1 y = none := by
    intro y
    simp [fillBits, shr]
  unfold ceilPow2
  rw [this]
  rfl

/-- **C63** Where the processor takes the number of places modulo 32, the result is the smallest power of two that is not smaller, for
numbers from 1 to 2^31. -/
theorem C63_pow2_partial (x : ℕ) (h1 : 1 ≤ x) (h2 : x ≤ 2 ^ 31) :
    ∃ k, ceilPow2 shrX86 x = some (2 ^ k) ∧ x ≤ 2 ^ k ∧ ∀ j, x ≤ 2 ^ j → 2 ^ k ≤ 2 ^ j := by
  have hy : (x + (2 ^ 32 - 1)) % 2 ^ 32 = x - 1 := by omega
  obtain ⟨z, e, hz⟩ := fillBits_ok (x - 1)
  unfold ceilPow2
  rw [hy, e, Option.map_some]
  by_cases h0 : x - 1 = 0
  · have hz0 : z = 0 := by
      apply Nat.eq_of_testBit_eq
      intro i
      rw [Nat.zero_testBit, Bool.eq_false_iff]
      intro hb
      obtain ⟨d, -, hd⟩ := (hz i).1 hb
      rw [h0, Nat.zero_testBit] at hd
      cases hd
    refine ⟨0, by rw [hz0]; rfl, by omega, ?_⟩
    intro j _
    exact Nat.pow_le_pow_right (by decide) (Nat.zero_le j)
  · have hlog : Nat.log2 (x - 1) < 31 := (Nat.log2_lt h0).2 (by omega)
    have hle : 2 ^ Nat.log2 (x - 1) ≤ x - 1 := Nat.log2_self_le h0
    have hlt : x - 1 < 2 ^ (Nat.log2 (x - 1) + 1) := (Nat.log2_lt h0).1 (Nat.lt_succ_self _)
    have hp : 2 ^ (Nat.log2 (x - 1) + 1) ≤ 2 ^ 31 := Nat.pow_le_pow_right (by decide) (by omega)
    refine ⟨Nat.log2 (x - 1) + 1, ?_, by omega, ?_⟩
    · rw [filled_eq hz h0 (by omega)]
      have : 2 ^ (Nat.log2 (x - 1) + 1) - 1 + 1 = 2 ^ (Nat.log2 (x - 1) + 1) := by omega
      rw [this, Nat.mod_eq_of_lt (by omega)]
    · intro j hj
      apply Nat.pow_le_pow_right (by decide)
      by_contra hc
      have : 2 ^ j ≤ 2 ^ Nat.log2 (x - 1) := Nat.pow_le_pow_right (by decide) (by omega)
      omega

example : ceilPow2 shrX86 5 = some 8 ∧ ceilPow2 shrX86 8 = some 8 ∧ ceilPow2 shr 5 = none := by decide +kernel

end Verif.Geom.Bilinear
