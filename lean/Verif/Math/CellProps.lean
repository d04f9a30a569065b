import Verif.Math.CellLemmas

/-!
C99: cell noise
-/

namespace Verif.Math.Cell

open Spec

/-- **C99** The table of permutations is one of 0 to 2047, twice over. -/
theorem C99_permutation : (∀ i, i < 4096 → ∃ j, perm i = some j ∧ j < 2048) ∧ (∀ i, 4096 ≤ i → perm i = none) ∧
    (∀ i k, i < 4096 → k < 4096 → (perm i = perm k ↔ i % 2048 = k % 2048)) ∧ ∀ j, j < 2048 → ∃ i, i < 2048 ∧ perm i = some j := by
  refine ⟨fun i hi => ?_, fun i hi => if_neg (by omega), perm_inj, fun j hj => ?_⟩
  · obtain ⟨j, h1, h2, _⟩ := perm_some i hi
    exact ⟨j, h1, h2⟩
  · obtain ⟨i, h1, h2⟩ := map_true _ _ (inv_perm j hj)
    simp only [Bool.and_eq_true, decide_eq_true_eq] at h2
    refine ⟨i, h2.1, ?_⟩
    unfold perm
    rw [if_pos (by omega), Nat.mod_eq_of_lt h2.1]
    exact h2.2

/-- **C99** The table of random numbers has 2048 different ones between zero and one. -/
theorem C99_random : (∀ i, i < 2048 → ∃ r, random i = some r ∧ 0 < r ∧ r < 1) ∧
    ∀ i k, i < 2048 → k < 2048 → (random i = random k ↔ i = k) := ⟨random_some, random_inj⟩

/-- **C99** Cell noise of one, two and four coordinates is a number between zero and one; it is the same all over a cell, and other in the
cells beside it in any direction, up to 2048 of them away. The coordinates are not to be integers less than zero. -/
theorem C99_cells_partial (x y z w a : ℚ) (hx : Good x) (hy : Good y) (hz : Good z) (hw : Good w) (ha : Good a) :
    (∃ r, f1 x = some r ∧ 0 < r ∧ r < 1) ∧ (∃ r, f2 x y = some r ∧ 0 < r ∧ r < 1) ∧ (∃ r, f4 x y z w = some r ∧ 0 < r ∧ r < 1) ∧
    (f1 x = f1 a ↔ Same x a) ∧
    (f2 x y = f2 a y ↔ Same x a) ∧ (f2 x y = f2 x a ↔ Same y a) ∧
    (f4 x y z w = f4 a y z w ↔ Same x a) ∧ (f4 x y z w = f4 x a z w ↔ Same y a) ∧ (f4 x y z w = f4 x y a w ↔ Same z a) ∧
    (f4 x y z w = f4 x y z a ↔ Same w a) := by
  have val : ∀ xs : List ℚ, (∀ x ∈ xs, Good x) → ∃ r, (walk xs 0).bind random = some r ∧ 0 < r ∧ r < 1 := by
    intro xs h
    obtain ⟨j, h1, h2⟩ := walk_some xs h 0 (by omega)
    rw [h1]
    exact random_some j h2
  have step : ∀ (u : ℚ), Good u → ∃ j, j < 2048 ∧ ∀ xs, walk (u :: xs) 0 = walk xs j := by
    intro u hu
    obtain ⟨j, h1, h2, _⟩ := perm_some (0 + (⌊u⌋ % 2048).toNat) (by omega)
    exact ⟨j, h2, fun xs => by rw [walk_cons u xs 0 hu, h1]; rfl⟩
  have stepi : ∀ (u : ℚ) (i : ℕ), Good u → i < 2048 → ∃ j, j < 2048 ∧ ∀ xs, walk (u :: xs) i = walk xs j := by
    intro u i hu hi
    obtain ⟨j, h1, h2, _⟩ := perm_some (i + (⌊u⌋ % 2048).toNat) (by omega)
    exact ⟨j, h2, fun xs => by rw [walk_cons u xs i hu, h1]; rfl⟩
  obtain ⟨jx, bx, ex⟩ := step x hx
  obtain ⟨jy, by', ey⟩ := stepi y jx hy bx
  obtain ⟨jz, bz, ez⟩ := stepi z jy hz by'
  refine ⟨val [x] (by simp [hx]), val [x, y] (by simp [hx, hy]), val [x, y, z, w] (by simp [hx, hy, hz, hw]), ?_, ?_, ?_, ?_, ?_, ?_, ?_⟩
  · exact (bind_random [x] [a] (by simp [hx]) (by simp [ha])).trans (walk_change x a [] hx ha (by simp) 0 (by omega))
  · exact (bind_random [x, y] [a, y] (by simp [hx, hy]) (by simp [ha, hy])).trans (walk_change x a [y] hx ha (by simp [hy]) 0 (by omega))
  · refine (bind_random [x, y] [x, a] (by simp [hx, hy]) (by simp [ha, hx])).trans ?_
    rw [ex, ex]
    exact walk_change y a [] hy ha (by simp) jx bx
  · exact (bind_random [x, y, z, w] [a, y, z, w] (by simp [hx, hy, hz, hw]) (by simp [ha, hy, hz, hw])).trans
      (walk_change x a [y, z, w] hx ha (by simp [hy, hz, hw]) 0 (by omega))
  · refine (bind_random [x, y, z, w] [x, a, z, w] (by simp [hx, hy, hz, hw]) (by simp [ha, hx, hz, hw])).trans ?_
    rw [ex, ex]
    exact walk_change y a [z, w] hy ha (by simp [hz, hw]) jx bx
  · refine (bind_random [x, y, z, w] [x, y, a, w] (by simp [hx, hy, hz, hw]) (by simp [ha, hx, hy, hw])).trans ?_
    rw [ex, ex, ey, ey]
    exact walk_change z a [w] hz ha (by simp [hw]) jy by'
  · refine (bind_random [x, y, z, w] [x, y, z, a] (by simp [hx, hy, hz, hw]) (by simp [ha, hx, hy, hz])).trans ?_
    rw [ex, ex, ey, ey, ez, ez]
    exact walk_change w a [] hw ha (by simp) jz bz

/-- **C99** The same for the noise of points and colours, of three coordinates too; its three components are between zero and one, and the
first one is the noise of the floats for one, two and four coordinates. -/
theorem C99_points_partial (x y z w a : ℚ) (hx : Good x) (hy : Good y) (hz : Good z) (hw : Good w) (ha : Good a) :
    (∃ r s t, p3 x y z = some (r, s, t) ∧ 0 < r ∧ r < 1 ∧ 0 < s ∧ s < 1 ∧ 0 < t ∧ t < 1) ∧
    (∃ r s t, p1 x = some (r, s, t) ∧ f1 x = some r) ∧ (∃ r s t, p2 x y = some (r, s, t) ∧ f2 x y = some r) ∧
    (∃ r s t, p4 x y z w = some (r, s, t) ∧ f4 x y z w = some r) ∧
    (p3 x y z = p3 a y z ↔ Same x a) ∧ (p3 x y z = p3 x a z ↔ Same y a) ∧ (p3 x y z = p3 x y a ↔ Same z a) := by
  have val : ∀ xs : List ℚ, (∀ x ∈ xs, Good x) → ∃ r s t, (walk xs 0).bind three = some (r, s, t) ∧ (walk xs 0).bind random = some r ∧
      0 < r ∧ r < 1 ∧ 0 < s ∧ s < 1 ∧ 0 < t ∧ t < 1 := by
    intro xs h
    obtain ⟨j, h1, h2⟩ := walk_some xs h 0 (by omega)
    rw [h1]
    exact three_some j h2
  have stepi : ∀ (u : ℚ) (i : ℕ), Good u → i < 2048 → ∃ j, j < 2048 ∧ ∀ xs, walk (u :: xs) i = walk xs j := by
    intro u i hu hi
    obtain ⟨j, h1, h2, _⟩ := perm_some (i + (⌊u⌋ % 2048).toNat) (by omega)
    exact ⟨j, h2, fun xs => by rw [walk_cons u xs i hu, h1]; rfl⟩
  obtain ⟨jx, bx, ex⟩ := stepi x 0 hx (by omega)
  obtain ⟨jy, by', ey⟩ := stepi y jx hy bx
  refine ⟨?_, ?_, ?_, ?_, ?_, ?_, ?_⟩
  · obtain ⟨r, s, t, h1, _, h3⟩ := val [x, y, z] (by simp [hx, hy, hz])
    exact ⟨r, s, t, h1, h3⟩
  · obtain ⟨r, s, t, h1, h2, _⟩ := val [x] (by simp [hx])
    exact ⟨r, s, t, h1, h2⟩
  · obtain ⟨r, s, t, h1, h2, _⟩ := val [x, y] (by simp [hx, hy])
    exact ⟨r, s, t, h1, h2⟩
  · obtain ⟨r, s, t, h1, h2, _⟩ := val [x, y, z, w] (by simp [hx, hy, hz, hw])
    exact ⟨r, s, t, h1, h2⟩
  · exact (bind_three [x, y, z] [a, y, z] (by simp [hx, hy, hz]) (by simp [ha, hy, hz])).trans
      (walk_change x a [y, z] hx ha (by simp [hy, hz]) 0 (by omega))
  · refine (bind_three [x, y, z] [x, a, z] (by simp [hx, hy, hz]) (by simp [ha, hx, hz])).trans ?_
    rw [ex, ex]
    exact walk_change y a [z] hy ha (by simp [hz]) jx bx
  · refine (bind_three [x, y, z] [x, y, a] (by simp [hx, hy, hz]) (by simp [ha, hx, hy])).trans ?_
    rw [ex, ex, ey, ey]
    exact walk_change z a [] hz ha (by simp) jy by'

example : Good (-1 / 2) ∧ Good 3 ∧ Same (-1 / 2) 2047 ∧ ¬ Same (1 / 2) 1 := by
  unfold Good Same
  decide +kernel

/-- **C99, disagreement.** The noise of floats for points takes the first coordinate for the second one
(libs/math/cellnoise.cpp:93, `TqFloat y = P.x();`): it does not depend on the second coordinate at all, and is not the first component of the
noise of points. -/
theorem C99_second_violated : (∀ x y y' z, f3 x y z = f3 x y' z) ∧ (p3 0 0 0).map Prod.fst ≠ (p3 0 1 0).map Prod.fst ∧
    f3 0 1 0 ≠ (p3 0 1 0).map Prod.fst := by
  refine ⟨fun _ _ _ _ => rfl, ?_, ?_⟩
  · decide +kernel
  · decide +kernel

/-- **C99, disagreement.** Integers less than zero are in the cell below their own: the noise at -1 is not that of the cell from -1 to 0 but
that of the one below (libs/math/cellnoise.cpp:60-61); numbers outside of the range of `TqInt` have no cell. -/
theorem C99_integers_violated : ⌊(-1 : ℚ)⌋ = ⌊(-1 / 2 : ℚ)⌋ ∧ f1 (-1) ≠ f1 (-1 / 2) ∧ f1 (-1) = f1 (-3 / 2) ∧ f1 (2 ^ 31) = none := by
  refine ⟨?_, ?_, ?_, ?_⟩
  · decide +kernel
  · decide +kernel
  · decide +kernel
  · decide +kernel

end Verif.Math.Cell
